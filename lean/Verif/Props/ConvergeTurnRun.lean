import Verif.Props.ConvergeTurn
import Verif.Props.ConvergeRun
import Mathlib.Analysis.ODE.ExistUnique

/-!
# C131: the exact motion exists, and simulations with small steps do not raise
-/

namespace Arboris
open Matrix Spec Mech Build Sim Turn

variable {n : ℕ}

namespace Turn
open Smooth

/-- the controllers do not raise -/
lemma ask_at {up : Vec3} {m : Body → ℝ} {c : Body → Vec3} {w0 w a : MWorld n Unit} {q v : Fin n → ℝ} {dt : ℝ} (h0 : Fixed m c w0)
    (ht : w.tree = w0.tree.map (jointAt q v) id) (h1 : a.tree = w.tree) (h3 : a.dyn = bodiesAt w0 q v) : ∀ {l : List LibCtrl}, (∀ x ∈ l, PlainCtrl x) →
    (∀ x ∈ l, Suited w0 x) → ∃ vals, askAll up a dt l = .ok vals := by
  have hlinks : ∀ l ∈ w.tree.links, l.start + l.att.ndof ≤ n ∧ RigidLink l := by
    intro l hl
    rw [ht, links_map] at hl
    obtain ⟨l0, hl0, rfl⟩ := List.mem_map.mp hl
    refine ⟨?_, rigid_at (h0.links l0 hl0).2.2 _ _⟩
    have := (h0.links l0 hl0).1
    obtain ⟨att, start, p0, p1⟩ := l0
    cases att <;> exact this
  have hd : worldDynamic n (linksOf w) = bodiesAt w0 q v := by
    unfold bodiesAt linksOf worldAt
    rw [ht]
  have hdofs : ∀ js, dofsOf w js = dofsOf w0 js := by
    intro js
    rw [← dofs_at w0 q v js]
    unfold dofsOf worldAt
    rw [ht]
  intro l hl hs
  induction l with
  | nil => exact ⟨[], rfl⟩
  | cons x l ih =>
    obtain ⟨vs, hvs⟩ := ih (fun y hy => hl y (by simp [hy])) fun y hy => hs y (by simp [hy])
    have h : ∃ val, LibCtrl.update up a dt x = .ok val := by
      cases x with
      | weight γ =>
        refine ⟨_, weightUpdateE_ok γ up a.dyn (by rw [h3, ← hd]; exact poses_at fun l hl => (hlinks l hl).2) fun x hx hneg => ?_⟩
        rw [h3] at hx
        have hx := mem_dyn (w := worldAt w0 q v) hx
        rw [worldAt, bodies_map, ] at hx
        obtain ⟨⟨I, hr⟩, h0⟩ := h0.bodies _ hx
        have hz : m x.1 = 0 := by
          refine le_antisymm ?_ h0
          have := hneg 3 3
          simp only [hr.eq] at this
          simpa [blk] using this
        unfold gravityTwist
        rw [iadj_zero, hr.eq, hz, blk_mulVec]
        simp [tw_zero]
      | pd js g =>
        obtain ⟨h4, d, hsame⟩ := hs (.pd js g) (by simp)
        have e : pdRead a js = pdRead w js := by unfold pdRead; rw [h1]
        rw [← hdofs, dofsOf_read] at h4
        have hn := pdDofMap_nodup h0.num (hl (.pd js g) (by simp))
        rw [← dofsOf_read, ← hdofs, dofsOf_read] at hn
        have key : ∀ p ∈ pdRead w js, p.ndof = d := by
          intro p hp
          obtain ⟨i, hi, he⟩ := List.mem_filterMap.mp hp
          obtain ⟨l, hl, rfl⟩ := Option.map_eq_some_iff.mp he
          rw [ht, links_map, List.getElem?_map] at hl
          obtain ⟨l0, hl0, rfl⟩ := Option.map_eq_some_iff.mp hl
          rw [← hsame i hi l0 hl0]
          have hs := (h0.links l0 (List.mem_of_getElem? hl0)).2.1
          obtain ⟨att, start, b0, b1⟩ := l0
          cases att with
          | lin k q dq => simp [jointAt, MLink.pd, PDJoint.ndof, JAttr.ndof]
          | free H T => exact absurd rfl (hs H T)
          | fixed => rfl
        have hin : ∀ d ∈ pdDofMap (pdRead w js), d < n := by
          intro d hd
          obtain ⟨i, hi, hil, h4, h5⟩ := mem_pdDofMap hd
          have := (hlinks _ (List.getElem_mem hil)).1
          omega
        obtain ⟨val, hv, -⟩ := C34_law (n := n) g (pdRead w js) dt h4 (fun p hp p' hp' => by rw [key p hp, key p' hp']) hn hin
        exact ⟨val, by rw [← e] at hv; exact hv⟩
    obtain ⟨val, hv⟩ := h
    exact ⟨val :: vs, by unfold askAll; simp only [hv, hvs]⟩

/-- a step does not raise when its matrix is invertible -/
lemma step_exists {up : Vec3} {m : Body → ℝ} {c : Body → Vec3} {cs : List LibCtrl} {w0 w : MWorld n Unit} {q : Fin n → ℝ} {dt : ℝ} (h0 : Fixed m c w0)
    (hg : ∀ y ∈ cs, PlainCtrl y) (hs : ∀ y ∈ cs, Suited w0 y) (ht : w.tree = w0.tree.map (jointAt q w.gvel) id) (hc : w.cons = []) (hdt : 0 < dt)
    {b : Z n → Fin n → ℝ} {K D : Z n → Matrix (Fin n) (Fin n) ℝ} (hf : ∀ z q' v', (cs.map (mixed up m c w0 z q' v')).sum = b z - K z *ᵥ q' - D z *ᵥ v')
    (hdet : (lhs (fun z => worldMass (bodiesAt w0 z.1 z.2)) (fun z => worldViscosity (bodiesAt w0 z.1 z.2)) (fun z => worldNleffects (bodiesAt w0 z.1 z.2)) K D
      (dt, (q, w.gvel))).det ≠ 0) :
    ∃ a1 a2 a3 w', (engine (libPlug n up cs)).dynamic w = .ok a1 ∧ (engine (libPlug n up cs)).controllers dt a1 = .ok a2 ∧
      (engine (libPlug n up cs)).constraints dt a2 = .ok a3 ∧ (engine (libPlug n up cs)).integrate dt a3 = .ok w' := by
  have hd : worldDynamic n (linksOf w) = bodiesAt w0 q w.gvel := by
    unfold bodiesAt linksOf worldAt
    rw [ht]
  have hval : ∀ l ∈ (w.tree.map MLink.link id).links, ValidLink l := by
    intro l hl
    rw [links_map, ht, links_map] at hl
    obtain ⟨l1, hl1, rfl⟩ := List.mem_map.mp hl
    obtain ⟨l0, hl0, rfl⟩ := List.mem_map.mp hl1
    exact valid_link (rigid_at (h0.links l0 hl0).2.2 _ _)
  have e1 := (C20_no_assertion n _ hval).2
  obtain ⟨a, ha⟩ : ∃ a : MWorld n Unit, a = { w with dyn := worldDynamic n (linksOf w), mass := worldMass (worldDynamic n (linksOf w)), viscosity := worldViscosity (worldDynamic n (linksOf w)), nleffects := worldNleffects (worldDynamic n (linksOf w)) } := ⟨_, rfl⟩
  have g1 : (engine (libPlug n up cs)).dynamic w = .ok a := by
    simp only [engine, dynamic]
    rw [e1, ha]
    rfl
  obtain ⟨vals, hask⟩ := ask_at (up := up) (dt := dt) (a := a) h0 ht (by rw [ha]) (by rw [ha]; exact hd) hg hs
  have hsum := fun v' => vals_at (a := a) (dt := dt) h0 ht (by rw [ha]) (by rw [ha]; exact hd) v' hg (askAll_inv hask)
  have himp : (vals.map (·.impedance)).sum = -(dt • K (q, w.gvel) + D (q, w.gvel)) := by
    refine Matrix.ext_of_mulVec_single fun i => ?_
    have h1 := hsum (Pi.single i 1)
    have h2 := hsum 0
    rw [hf] at h1 h2
    simp only [Matrix.mulVec_zero, smul_zero, add_zero, sub_zero] at h2
    rw [h2] at h1
    simp only [Matrix.neg_mulVec, Matrix.add_mulVec, Matrix.smul_mulVec, Matrix.mulVec_add, Matrix.mulVec_smul] at h1 ⊢
    rw [← sub_eq_zero] at h1 ⊢
    rw [← h1]
    module
  have hz : (dt⁻¹ • a.mass + a.viscosity + a.nleffects - (vals.map (·.impedance)).sum).det ≠ 0 := by
    have e2 : dt⁻¹ • a.mass + a.viscosity + a.nleffects - (vals.map (·.impedance)).sum =
        dt⁻¹ • lhs (fun z => worldMass (bodiesAt w0 z.1 z.2)) (fun z => worldViscosity (bodiesAt w0 z.1 z.2)) (fun z => worldNleffects (bodiesAt w0 z.1 z.2)) K D
          (dt, (q, w.gvel)) := by
      rw [himp]
      simp only [ha, lhs, hd, smul_add, inv_smul_smul₀ hdt.ne']
      module
    rw [e2, Matrix.det_smul]
    exact mul_ne_zero (pow_ne_zero _ (inv_ne_zero hdt.ne')) hdet
  obtain ⟨o, ho⟩ : ∃ o, updateControllers a.mass a.viscosity a.nleffects dt vals = .ok o :=
    ⟨⟨_, _, _⟩, (C33_sum _ _ _ _ _ _).mpr ⟨hdt, hz, rfl, rfl, Matrix.nonsing_inv_mul _ (isUnit_iff_ne_zero.mpr hz)⟩⟩
  obtain ⟨a2, ha2, hc2⟩ : ∃ a2, (engine (libPlug n up cs)).controllers dt a = .ok a2 ∧ a2.cons = [] := by
    simp only [engine, controllers, libPlug, hask, ho]
    exact ⟨_, rfl, by rw [ha]; exact hc⟩
  obtain ⟨a3, ha3⟩ : ∃ a3, (engine (libPlug n up cs)).constraints dt a2 = .ok a3 := by
    simp only [engine, constraints, updateConstraints, if_pos hdt, hc2, List.map_nil, writeBack]
    exact ⟨_, rfl⟩
  obtain ⟨w', hw'⟩ : ∃ w', (engine (libPlug n up cs)).integrate dt a3 = .ok w' := by
    simp only [engine, Mech.integrate, integrateGvel, if_pos hdt]
    exact ⟨_, rfl⟩
  exact ⟨a, a2, a3, w', g1, ha2, ha3, hw'⟩

/-- steps from near the exact motion -/
lemma steps_exist {up : Vec3} {m : Body → ℝ} {c : Body → Vec3} {cs : List LibCtrl} {w0 : MWorld n Unit} {t0 T h : ℝ} (h0 : Fixed m c w0)
    (hg : ∀ y ∈ cs, PlainCtrl y) (hs : ∀ y ∈ cs, Suited w0 y) {Near : ℝ → Z n → Prop}
    {b : Z n → Fin n → ℝ} {K D : Z n → Matrix (Fin n) (Fin n) ℝ} (hf : ∀ z q' v', (cs.map (mixed up m c w0 z q' v')).sum = b z - K z *ᵥ q' - D z *ᵥ v')
    (hdet : ∀ t t' z, t ∈ Set.Icc t0 T → t' ∈ Set.Icc t0 T → t < t' → t' - t ≤ h → Near t z →
      (lhs (fun z => worldMass (bodiesAt w0 z.1 z.2)) (fun z => worldViscosity (bodiesAt w0 z.1 z.2)) (fun z => worldNleffects (bodiesAt w0 z.1 z.2)) K D (t' - t, z)).det ≠ 0)
    (hstep : ∀ t t' q v q' v', t ∈ Set.Icc t0 T → t' ∈ Set.Icc t0 T → t < t' → t' - t ≤ h → Near t (q, v) → q' = q + (t' - t) • v' →
        worldMass (bodiesAt w0 q v) *ᵥ (v' - v) + (t' - t) • ((worldViscosity (bodiesAt w0 q v) + worldNleffects (bodiesAt w0 q v)) *ᵥ v') =
          (t' - t) • (cs.map (mixed up m c w0 (q, v) q' v')).sum → Near t' (q', v')) :
    ∀ (ts : List ℝ) (t : ℝ) {w : MWorld n Unit} {q : Fin n → ℝ}, w.tree = w0.tree.map (jointAt q w.gvel) id → w.cons = [] → (∀ l ∈ w.tree.links, HasVel w.gvel l) →
      (t :: ts).Pairwise (· < ·) → (∀ τ ∈ t :: ts, τ ∈ Set.Icc t0 T) → (t :: ts).IsChain (fun a b => b - a ≤ h) → Near t (q, w.gvel) →
      ∃ obs w', Steps (engine (libPlug n up cs)) (t :: ts) w obs w'
  | [], t, w, _, _, _, _, _, _, _, _ => ⟨[], w, .done t w⟩
  | t' :: ts, t, w, q, ht, hc, hv, hp, hT, hch, hn => by
    have hlt : t < t' := (List.pairwise_cons.mp hp).1 t' (by simp)
    obtain ⟨hd, hch'⟩ := List.isChain_cons_cons.mp hch
    obtain ⟨a1, a2, a3, w1, k1, k2, k3, k4⟩ := step_exists (up := up) h0 hg hs ht hc (sub_pos.mpr hlt) hf (hdet t t' _ (hT t (by simp)) (hT t' (by simp)) hlt hd hn)
    have hws := step_wstep hv k1 k2 k3 k4
    obtain ⟨g1, g2, g3⟩ := step_at h0 hg ht hc hws
    obtain ⟨obs, w', hst⟩ := steps_exist h0 hg hs hf hdet hstep ts t' g1 g2 hws.vel (List.pairwise_cons.mp hp).2 (fun y hy => hT y (by simp at hy ⊢; tauto)) hch'
      (hstep t t' q w.gvel _ w1.gvel (hT t (by simp)) (hT t' (by simp)) hlt hd hn rfl g3)
    exact ⟨_, w', .step k1 k2 k3 k4 hst⟩

end Turn

/-- C131.  No simulation of this mechanism with small enough steps raises, as long as the exact motion exists: no matrix it inverts is singular. -/
theorem C131_runs {up : Vec3} {m : Body → ℝ} {c : Body → Vec3} {cs : List LibCtrl} {w w0 : MWorld n Unit} {t0 T : ℝ} {x u a : ℝ → Fin n → ℝ}
    (hw : JointedWorld m c w) (hg : ∀ y ∈ cs, PlainCtrl y) (hs : ∀ y ∈ cs, Suited w y) (hi : Mech.init w = .ok w0) (hx : ExactPath up m c cs w0 t0 T x u a) :
    ∃ hmax > 0, ∀ (tl : List ℝ) (k : ℕ), tl.head? = some t0 → tl.Pairwise (· < ·) → (∀ t ∈ tl, t ≤ T) → tl.IsChain (fun t1 t2 => t2 - t1 ≤ hmax) →
      ∃ tr w' t', simulate (engine (libPlug n up cs)) w tl (.list k) = (tr, .ok (w', t')) := by
  by_cases hT : t0 ≤ T
  swap
  · refine ⟨1, one_pos, ?_⟩
    intro tl k hhead _ hT' _
    exact absurd (hT' t0 (List.mem_of_mem_head? hhead)) hT
  obtain ⟨w0', h1, hst⟩ := init_started hw.dofs
  obtain rfl : w0 = w0' := Except.ok.inj (hi.symm.trans h1)
  have hfix := Fixed.started hw hst
  have hs0 : ∀ y ∈ cs, Suited w0 y := by
    intro y hy
    have := hs y hy
    cases y with
    | weight γ => trivial
    | pd js g =>
      obtain ⟨h2, d, hd⟩ := this
      refine ⟨?_, d, fun i hi l hl => ?_⟩
      · have := dofs_started hst js
        rw [← List.length_pos_iff] at h2 ⊢
        omega
      · obtain ⟨l0, h0, h1⟩ := forall₂_get? hst.tree.links.1 hl
        rw [h1]
        exact hd i hi l0 h0
  obtain ⟨M, B, N, K, D, b, eM, ef, eB, eN, A, hA, L, hL, hmax, hpos, hconv⟩ := near_exists hT hx
  obtain rfl : M = _ := funext eM
  obtain rfl : B = _ := funext eB
  obtain rfl : N = _ := funext eN
  refine ⟨hmax, hpos, ?_⟩
  intro tl k hhead hp hTl hch
  cases tl with
  | nil => simp at hhead
  | cons t1 rest =>
  obtain rfl : t1 = t0 := by simpa using hhead
  have hIcc : ∀ τ ∈ t1 :: rest, τ ∈ Set.Icc t1 T := by
    intro τ hτ
    refine ⟨?_, hTl τ hτ⟩
    rcases List.mem_cons.mp hτ with rfl | hτ
    · exact le_rfl
    · exact ((List.pairwise_cons.mp hp).1 τ hτ).le
  have htree : w0.tree = w0.tree.map (jointAt (x t1) w0.gvel) id :=
    (map_self fun l hl => jointAt_self (hfix.links l hl).2.1 (hx.pos l hl) (hst.vel l hl)).symm
  obtain ⟨obs, w', hsteps⟩ := steps_exist (up := up) hfix hg hs0 (T := T) (h := hmax) (Near := fun t z => ‖z - (x t, u t)‖ ≤ OneStep.bound A L hmax (t - t1)) ef
    (fun t τ z ht ht' htt hth hnear => (hconv t (τ - t) hmax z ht.1 (by linarith) hth le_rfl (by linarith [ht'.2]) hnear).1) (by
      intro t τ q v q' v' ht ht' htt hth hnear eq1 eq2
      obtain ⟨d1, d2⟩ := hconv t (τ - t) hmax (q, v) ht.1 (by linarith) hth le_rfl (by linarith [ht'.2]) hnear
      rw [ef, eq1] at eq2
      have := slope_step (dt := τ - t) (by linarith) d1 eq2
      rw [← this, ← eq1, add_sub_cancel] at d2
      exact d2) rest t1 htree hfix.cons hst.vel hp hIcc hch (by rw [hx.vel]; simp [OneStep.bound])
  exact ⟨_, w', (t1 :: rest).getLast (by simp), (C45_run ..).mpr ⟨t1, rest, w0, obs, rfl, hp, hi, hsteps, rfl, List.getLast?_eq_some_getLast _⟩⟩

/-- C131.  When its mass matrix is invertible at the beginning, such a mechanism has an exact motion during some time. -/
theorem C131_exists {up : Vec3} {m : Body → ℝ} {c : Body → Vec3} {cs : List LibCtrl} {w w0 : MWorld n Unit} (hw : JointedWorld m c w)
    (hi : Mech.init w = .ok w0) (hM : (worldMass (worldDynamic n (linksOf w0))).det ≠ 0) (t0 : ℝ) :
    ∃ T > t0, ∃ x u a, ExactPath up m c cs w0 t0 T x u a := by
  obtain ⟨w0', h1, hst⟩ := init_started hw.dofs
  obtain rfl : w0 = w0' := Except.ok.inj (hi.symm.trans h1)
  have hfix := Fixed.started hw hst
  obtain ⟨q, hq⟩ := pos_exists (n := n) _ _ hfix.num fun l hl => (hfix.links l hl).1
  have htree : w0.tree = w0.tree.map (jointAt q w0.gvel) id := (map_self fun l hl => jointAt_self (hfix.links l hl).2.1 (hq l hl) (hst.vel l hl)).symm
  have hd : worldDynamic n (linksOf w0) = bodiesAt w0 q w0.gvel := by
    unfold bodiesAt linksOf worldAt
    rw [← htree]
  rw [hd] at hM
  obtain ⟨bs, h1, h2⟩ := smooth_bodies w0
  obtain ⟨b, K, D, hb, hf⟩ := mixed_form up m c w0 cs
  have sM : Smooth.SM fun z : Z n => worldMass (bodiesAt w0 z.1 z.2) := by simp only [h2]; exact Smooth.mass h1
  have sB : Smooth.SM fun z : Z n => worldViscosity (bodiesAt w0 z.1 z.2) := by simp only [h2]; exact Smooth.viscosity h1
  have sN : Smooth.SM fun z : Z n => worldNleffects (bodiesAt w0 z.1 z.2) := by simp only [h2]; exact Smooth.nleffects h1
  set S := Turn.slope (fun z : Z n => worldMass (bodiesAt w0 z.1 z.2)) (fun z => worldViscosity (bodiesAt w0 z.1 z.2)) (fun z => worldNleffects (bodiesAt w0 z.1 z.2))
    (fun _ => K) (fun _ => D) b with hS
  have hsm : ContDiffAt ℝ 1 (fun z : Z n => S (0, z)) (q, w0.gvel) := by
    have := smooth_slope sM sB sN (Smooth.SM.const K) (Smooth.SM.const D) hb (p := ((0 : ℝ), (q, w0.gvel))) (by simpa [lhs] using hM)
    exact this.comp (q, w0.gvel) (f := fun z : Z n => ((0 : ℝ), z)) (contDiffAt_const.prodMk contDiffAt_id)
  obtain ⟨z, hz0, ε, hε, hz⟩ := hsm.exists_forall_mem_closedBall_exists_eq_forall_mem_Ioo_hasDerivAt₀ t0
  have hcont : ContinuousAt (fun t => (worldMass (bodiesAt w0 (z t).1 (z t).2)).det) t0 := by
    have h3 : ContinuousAt (fun y : Z n => (worldMass (bodiesAt w0 y.1 y.2)).det) (z t0) := (smooth_det sM).continuous.continuousAt
    exact ContinuousAt.comp (f := z) h3 (hz t0 ⟨by linarith, by linarith⟩).continuousAt
  have hne : ∀ᶠ t in nhds t0, (worldMass (bodiesAt w0 (z t).1 (z t).2)).det ≠ 0 := hcont.eventually_ne (by rw [hz0]; exact hM)
  obtain ⟨δ, hδ, hball⟩ := Metric.eventually_nhds_iff.mp hne
  have hin : ∀ t ∈ Set.Icc t0 (t0 + min ε δ / 2), t ∈ Set.Ioo (t0 - ε) (t0 + ε) ∧ dist t t0 < δ := by
    intro t ht
    have h3 := min_le_left ε δ
    have h4 := min_le_right ε δ
    have h5 := lt_min hε hδ
    refine ⟨⟨by linarith [ht.1], by linarith [ht.2]⟩, ?_⟩
    rw [Real.dist_eq, abs_of_nonneg (by linarith [ht.1])]
    linarith [ht.2]
  refine ⟨t0 + min ε δ / 2, by have := lt_min hε hδ; linarith, fun t => (z t).1, fun t => (z t).2, fun t => (S (0, z t)).2, ?_⟩
  have hfst : ∀ t, (S (0, z t)).1 = (z t).2 := by
    intro t
    rw [hS]
    unfold Turn.slope
    simp
  refine ⟨by rw [hz0]; exact hq, by rw [hz0], ?_, ?_, ?_, fun t ht => hball (hin t ht).2⟩
  · intro t ht
    have := (hasFDerivAt_fst (𝕜 := ℝ) (p := z t)).comp_hasDerivAt t (hz t (hin t ht).1)
    rw [← hfst t]
    exact this
  · intro t ht
    exact (hasFDerivAt_snd (𝕜 := ℝ) (p := z t)).comp_hasDerivAt t (hz t (hin t ht).1)
  · intro t ht
    have hdet := hball (hin t ht).2
    have e1 : worldMass (bodiesAt w0 (z t).1 (z t).2) *ᵥ (S (0, z t)).2 = b (z t) - K *ᵥ (z t).1 - (worldViscosity (bodiesAt w0 (z t).1 (z t).2) +
        worldNleffects (bodiesAt w0 (z t).1 (z t).2) + D) *ᵥ (z t).2 := by
      rw [hS]
      simp only [Turn.slope, acc, lhs, rhs, zero_smul, add_zero, zero_add]
      rw [Matrix.mulVec_mulVec, Matrix.mul_nonsing_inv _ (isUnit_iff_ne_zero.mpr hdet), Matrix.one_mulVec]
    rw [← mixed_same, hf, e1, Matrix.add_mulVec, Matrix.add_mulVec]
    abel

lemma Turn.pos_unique {w : MWorld n Unit} (hnum : Numbered 0 w.tree.links) (hn : ndof w.tree = n) (hs : ∀ l ∈ w.tree.links, NotFree l) {x y : Fin n → ℝ}
    (hx : ∀ l ∈ w.tree.links, HasPos x l) (hy : ∀ l ∈ w.tree.links, HasPos y l) : x = y := by
  funext e
  obtain ⟨l, hl, h1, h2⟩ := sliding_cover (e := e.val) hnum (Nat.zero_le _) (by have := e.isLt; simp only [ndof] at hn; omega)
  have h3 := hx l hl
  have h4 := hy l hl
  have h5 := hs l hl
  obtain ⟨att, start, p0, p1⟩ := l
  cases att with
  | lin k q dq =>
    obtain ⟨hb, e1⟩ := h3
    obtain ⟨hb', e2⟩ := h4
    dsimp only at e1 e2 hb h1
    have h2 : e.val < start + k.ndof := h2
    have := congrFun (e1.symm.trans e2) ⟨e.val - start, by omega⟩
    simp only [slice] at this
    have ee : (⟨start + (e.val - start), by omega⟩ : Fin n) = e := Fin.ext (by simp only; omega)
    rw [ee] at this
    exact this
  | free H T => exact absurd rfl (h5 H T)
  | fixed =>
    have h2 : e.val < start + 0 := h2
    dsimp only at h1
    omega

/-- C131.  The exact motion is unique. -/
theorem C131_unique {up : Vec3} {m : Body → ℝ} {c : Body → Vec3} {cs : List LibCtrl} {w w0 : MWorld n Unit} {t0 T : ℝ} {x u a x' u' a' : ℝ → Fin n → ℝ}
    (hw : JointedWorld m c w) (hi : Mech.init w = .ok w0) (hx : ExactPath up m c cs w0 t0 T x u a) (hx' : ExactPath up m c cs w0 t0 T x' u' a') :
    ∀ t ∈ Set.Icc t0 T, x t = x' t ∧ u t = u' t ∧ a t = a' t := by
  obtain ⟨w0', h1, hst⟩ := init_started hw.dofs
  obtain rfl : w0 = w0' := Except.ok.inj (hi.symm.trans h1)
  have hfix := Fixed.started hw hst
  obtain ⟨bs, h1, h2⟩ := smooth_bodies w0
  obtain ⟨b, K, D, hb, hf⟩ := mixed_form up m c w0 cs
  have sM : Smooth.SM fun z : Z n => worldMass (bodiesAt w0 z.1 z.2) := by simp only [h2]; exact Smooth.mass h1
  have sB : Smooth.SM fun z : Z n => worldViscosity (bodiesAt w0 z.1 z.2) := by simp only [h2]; exact Smooth.viscosity h1
  have sN : Smooth.SM fun z : Z n => worldNleffects (bodiesAt w0 z.1 z.2) := by simp only [h2]; exact Smooth.nleffects h1
  set S := Turn.slope (fun z : Z n => worldMass (bodiesAt w0 z.1 z.2)) (fun z => worldViscosity (bodiesAt w0 z.1 z.2)) (fun z => worldNleffects (bodiesAt w0 z.1 z.2))
    (fun _ => K) (fun _ => D) b with hS
  have hslope : ∀ {x u a : ℝ → Fin n → ℝ}, ExactPath up m c cs w0 t0 T x u a → ∀ t ∈ Set.Icc t0 T, S (0, (x t, u t)) = (u t, a t) := by
    intro x u a hx t ht
    refine slope_zero (hx.inertia t ht) ?_
    have h3 := hx.law t ht
    rw [← mixed_same, hf] at h3
    exact h3
  have hder : ∀ {x u a : ℝ → Fin n → ℝ}, ExactPath up m c cs w0 t0 T x u a → ∀ t ∈ Set.Icc t0 T, HasDerivAt (fun t => (x t, u t)) (S (0, (x t, u t))) t := by
    intro x u a hx t ht
    rw [hslope hx t ht]
    exact (hx.dx t ht).prodMk (hx.du t ht)
  have hcont : ∀ {x u a : ℝ → Fin n → ℝ}, ExactPath up m c cs w0 t0 T x u a → ContinuousOn (fun t => (x t, u t)) (Set.Icc t0 T) :=
    fun hx t ht => (hder hx t ht).continuousAt.continuousWithinAt
  set V : Set (Z n) := ((fun t => (x t, u t)) '' Set.Icc t0 T) ∪ ((fun t => (x' t, u' t)) '' Set.Icc t0 T) with hV
  have hcpt : IsCompact V := (isCompact_Icc.image_of_continuousOn (hcont hx)).union (isCompact_Icc.image_of_continuousOn (hcont hx'))
  have hdet : ∀ z ∈ V, (worldMass (bodiesAt w0 z.1 z.2)).det ≠ 0 := by
    rintro z (⟨t, ht, rfl⟩ | ⟨t, ht, rfl⟩)
    · exact hx.inertia t ht
    · exact hx'.inertia t ht
  have hloc : LocallyLipschitzOn V fun z : Z n => S (0, z) := by
    intro z hz
    have hsm : ContDiffAt ℝ 1 (fun z : Z n => S (0, z)) z := by
      have := smooth_slope sM sB sN (Smooth.SM.const K) (Smooth.SM.const D) hb (p := ((0 : ℝ), z)) (by simpa [lhs] using hdet z hz)
      exact this.comp z (f := fun z : Z n => ((0 : ℝ), z)) (contDiffAt_const.prodMk contDiffAt_id)
    obtain ⟨L, s, hs, hL⟩ := hsm.exists_lipschitzOnWith
    exact ⟨L, s, mem_nhdsWithin_of_mem_nhds hs, hL⟩
  obtain ⟨L, hL⟩ := hloc.exists_lipschitzOnWith_of_compact hcpt
  have h3 : ndof w0.tree = n := by
    have h2 : w0.tree.links.map (fun l => l.att.ndof) = w.tree.links.map fun l => l.att.ndof := by
      have h3 := hst.tree.links.1
      generalize w.tree.links = l1 at h3
      generalize w0.tree.links = l2 at h3
      induction h3 with
      | nil => rfl
      | cons h4 _ ih => rw [List.map_cons, List.map_cons, ih, h4]
    unfold ndof
    rw [h2]
    exact hw.dofs
  have hini : x t0 = x' t0 := Turn.pos_unique hst.numbered h3 (fun l hl => (hfix.links l hl).2.1) hx.pos hx'.pos
  have key := ODE_solution_unique_of_mem_Icc_right (v := fun _ z => S (0, z)) (s := fun _ => V) (K := L) (a := t0) (b := T)
    (f := fun t => (x t, u t)) (g := fun t => (x' t, u' t)) (fun t _ => hL)
    (hcont hx) (fun t ht => (hder hx t ⟨ht.1, ht.2.le⟩).hasDerivWithinAt) (fun t ht => Or.inl ⟨t, ⟨ht.1, ht.2.le⟩, rfl⟩)
    (hcont hx') (fun t ht => (hder hx' t ⟨ht.1, ht.2.le⟩).hasDerivWithinAt) (fun t ht => Or.inr ⟨t, ⟨ht.1, ht.2.le⟩, rfl⟩)
    (by simp only [hini, hx.vel, hx'.vel])
  intro t ht
  have h4 := key ht
  have h5 := hslope hx t ht
  have h6 := hslope hx' t ht
  dsimp only at h4
  rw [h4, h6] at h5
  exact ⟨congrArg Prod.fst h4, congrArg Prod.snd h4, (congrArg Prod.snd h5).symm⟩

/-! ### an example -/

/-- a double pendulum: a body which turns around the y axis of the ground, one meter below it, and a body which turns around the y axis of the first one, one meter
below it; moving -/
noncomputable def doublePendulum : MWorld 2 Unit :=
  ⟨.cons ⟨.lin .Ry (fun _ => 1) (fun _ => 2), 0, 1, mkH 1 ![0, 0, 1]⟩ ⟨1, 0⟩ (.cons ⟨.lin .Ry (fun _ => -3) (fun _ => 5), 0, 1, mkH 1 ![0, 0, 1]⟩ ⟨1, 0⟩ .nil .nil) .nil,
    0, [], 0, 0, 0, ⟨0, 0, 0⟩, [], ()⟩

lemma pendulum_jointed : JointedWorld (fun _ => 1) (fun _ => 0) doublePendulum := by
  refine ⟨by simp [ndof, doublePendulum, Forest.links, JAttr.ndof, LinKind.ndof], ?_, ?_, rfl⟩
  · intro l hl
    simp only [doublePendulum, Forest.links, List.append_nil, List.mem_cons, List.not_mem_nil, or_false] at hl
    rcases hl with rfl | rfl
    · exact ⟨fun H T h => (by cases h), ⟨isRigid_one, isRigid_mkH IsRotation.one, fun H T h => (by cases h)⟩⟩
    · exact ⟨fun H T h => (by cases h), ⟨isRigid_one, isRigid_mkH IsRotation.one, fun H T h => (by cases h)⟩⟩
  · intro b hb
    simp only [doublePendulum, Forest.bodies, List.append_nil, List.mem_cons, List.not_mem_nil, or_false] at hb
    have hb : b = ⟨1, 0⟩ := by rcases hb with rfl | rfl <;> rfl
    subst hb
    exact ⟨⟨1, ⟨Matrix.transpose_one, by simp [skew_zero, blk_one]⟩⟩, zero_le_one⟩

/-- the links of the double pendulum, numbered -/
noncomputable def pendulumLinks : MLink × MLink :=
  ⟨⟨.lin .Ry (fun _ => 1) (fun _ => 2), 0, 1, mkH 1 ![0, 0, 1]⟩, ⟨.lin .Ry (fun _ => -3) (fun _ => 5), 1, 1, mkH 1 ![0, 0, 1]⟩⟩

lemma pendulum_mass {w0 : MWorld 2 Unit} (h : Mech.init doublePendulum = .ok w0) : (worldMass (worldDynamic 2 (linksOf w0))).det ≠ 0 := by
  have ht : w0.tree = .cons pendulumLinks.1 ⟨1, 0⟩ (.cons pendulumLinks.2 ⟨1, 0⟩ .nil .nil) .nil := by
    obtain rfl := Except.ok.inj h
    rfl
  have hd : worldDynamic 2 (linksOf w0) = [(⟨1, 0⟩, dynStep (groundDyn 2) pendulumLinks.1.link), (⟨1, 0⟩, dynStep (dynStep (groundDyn 2) pendulumLinks.1.link) pendulumLinks.2.link)] := by
    unfold linksOf
    rw [ht]
    rfl
  have h1 : SymPSD (1 : Mat6) := ⟨Matrix.transpose_one, fun x => by rw [Matrix.one_mulVec]; exact Finset.sum_nonneg fun i _ => mul_self_nonneg _⟩
  have h2 : SymPD (1 : Mat6) := by
    refine ⟨Matrix.transpose_one, fun x hx => ?_⟩
    rw [Matrix.one_mulVec]
    obtain ⟨i, hi⟩ := Function.ne_iff.mp hx
    exact Finset.sum_pos' (fun i _ => mul_self_nonneg _) ⟨i, Finset.mem_univ i, mul_self_pos.mpr hi⟩
  have col : ∀ y : Fin 1 → ℝ, (!![0; 1; 0; 0; 0; 0] : Matrix (Fin 6) (Fin 1) ℝ) *ᵥ y = tw ![0, y 0, 0] 0 := by
    intro y
    ext i
    fin_cases i <;> simp [Matrix.mulVec, dotProduct, tw]
  rw [hd]
  refine Euler.det_ne (C27_pd _ ?_ ?_)
  · intro x hx
    simp only [List.mem_cons, List.not_mem_nil, or_false] at hx
    rcases hx with rfl | rfl <;> exact h1
  · intro ν hν
    have j1 : pendulumLinks.1.link.joint.jac *ᵥ (selMat 2 pendulumLinks.1.link.start pendulumLinks.1.link.k *ᵥ ν) = tw ![0, ν 0, 0] 0 := by
      have e : ∀ y : Fin 1 → ℝ, y 0 = ν 0 → (!![0; 1; 0; 0; 0; 0] : Matrix (Fin 6) (Fin 1) ℝ) *ᵥ y = tw ![0, ν 0, 0] 0 := fun y hy => by rw [col, hy]
      exact e _ (congrFun (selMat_mulVec ν 0 1 (by norm_num)) 0)
    have j2 : pendulumLinks.2.link.joint.jac *ᵥ (selMat 2 pendulumLinks.2.link.start pendulumLinks.2.link.k *ᵥ ν) = tw ![0, ν 1, 0] 0 := by
      have e : ∀ y : Fin 1 → ℝ, y 0 = ν 1 → (!![0; 1; 0; 0; 0; 0] : Matrix (Fin 6) (Fin 1) ℝ) *ᵥ y = tw ![0, ν 1, 0] 0 := fun y hy => by rw [col, hy]
      exact e _ (congrFun (selMat_mulVec ν 1 1 (by norm_num)) 0)
    have b1 : pendulumLinks.1.link.bpose1 = mkH 1 ![0, 0, 1] := rfl
    have b2 : pendulumLinks.2.link.bpose1 = mkH 1 ![0, 0, 1] := rfl
    have e1 : (dynStep (groundDyn 2) pendulumLinks.1.link).jac *ᵥ ν = adjointBody (mkH 1 ![0, 0, 1]) *ᵥ tw ![0, ν 0, 0] 0 := by
      rw [dynStep_jac, Matrix.add_mulVec, ← Matrix.mulVec_mulVec, ← Matrix.mulVec_mulVec, ← Matrix.mulVec_mulVec, j1, b1]
      have g0 : (groundDyn 2).jac = 0 := rfl
      rw [g0, Matrix.zero_mulVec, Matrix.mulVec_zero, zero_add]
    have hang : ∀ r : ℝ, adjointBody (mkH 1 ![0, 0, 1]) *ᵥ tw ![0, r, 0] 0 = 0 → r = 0 := by
      intro r hr
      rw [adjointBody_mkH, blk_mulVec] at hr
      simpa [tw] using congrFun hr 1
    by_cases hz : ν 0 = 0
    · refine ⟨_, List.mem_cons_of_mem _ (List.mem_cons_self ..), h2, fun h0 => hν ?_⟩
      have z0 : tw ![0, ν 0, 0] 0 = 0 := by rw [hz]; ext i; fin_cases i <;> simp [tw]
      rw [z0, Matrix.mulVec_zero] at e1
      dsimp only at h0
      rw [dynStep_jac, Matrix.add_mulVec, ← Matrix.mulVec_mulVec, ← Matrix.mulVec_mulVec, ← Matrix.mulVec_mulVec, e1, j2, b2, Matrix.mulVec_zero, zero_add] at h0
      have := hang _ h0
      funext i
      fin_cases i
      · exact hz
      · exact this
    · refine ⟨_, List.mem_cons_self .., h2, fun h0 => hz (hang _ ?_)⟩
      rw [← e1]
      exact h0

/-- C131 (its hypotheses can be met): a double pendulum under its weight, with a spring and a damper on the second joint, has an exact motion during some time; the
simulations of it do not raise when they have enough steps, and converge to it. -/
theorem C131_example : ∃ w0, Mech.init doublePendulum = .ok w0 ∧ ∃ T > 0, ∃ x u a,
    ExactPath ![0, 0, 1] (fun _ => 1) (fun _ => 0) [.pd [1] craneSpring, .weight (-9.81)] w0 0 T x u a ∧ ∃ C ≥ 0, ∃ N0 : ℕ, ∀ N : ℕ, N0 < N → ∃ tr w',
      simulate (engine (libPlug 2 ![0, 0, 1] [.pd [1] craneSpring, .weight (-9.81)])) doublePendulum ((List.range (N + 1)).map fun i : ℕ => T * i / N) (.list 0) = (tr, .ok (w', T)) ∧
      CloseTo (x T) (u T) (C * (T / N)) w' := by
  have hw := pendulum_jointed
  have hd : dofsOf doublePendulum [1] = [0] := by simp [dofsOf, doublePendulum, Forest.links, LinKind.ndof]
  have hg : ∀ y ∈ [LibCtrl.pd [1] craneSpring, .weight (-9.81)], PlainCtrl y := by
    intro y hy
    simp only [List.mem_cons, List.not_mem_nil, or_false] at hy
    rcases hy with rfl | rfl
    · simp [PlainCtrl]
    · trivial
  have hs : ∀ y ∈ [LibCtrl.pd [1] craneSpring, .weight (-9.81)], Suited doublePendulum y := by
    intro y hy
    simp only [List.mem_cons, List.not_mem_nil, or_false] at hy
    rcases hy with rfl | rfl
    · refine ⟨by rw [hd]; simp, 1, ?_⟩
      intro i hi l hl
      obtain rfl : i = 1 := by simpa using hi
      obtain rfl : _ = l := by simpa [doublePendulum, Forest.links] using hl
      rfl
    · trivial
  obtain ⟨w0, h0, -⟩ := init_started hw.dofs
  obtain ⟨T, hT, x, u, a, hx⟩ := C131_exists (up := ![0, 0, 1]) (cs := [.pd [1] craneSpring, .weight (-9.81)]) hw h0 (pendulum_mass h0) 0
  obtain ⟨C, hC, h1, hh1, hconv⟩ := C131_converges hw hg h0 hx
  obtain ⟨h2, hh2, hruns⟩ := C131_runs hw hg hs h0 hx
  obtain ⟨N0, hN0⟩ := exists_nat_gt (T / min h1 h2)
  have hmin := lt_min hh1 hh2
  refine ⟨w0, h0, T, hT, x, u, a, hx, C, hC, N0, fun N hN => ?_⟩
  have hN' : (0 : ℝ) < N := by exact_mod_cast (Nat.zero_le N0).trans_lt hN
  have hsmall : T / N ≤ min h1 h2 := by
    rw [div_lt_iff₀ hmin] at hN0
    rw [div_le_iff₀ hN']
    have : (N0 : ℝ) ≤ N := by exact_mod_cast hN.le
    nlinarith
  set tl := (List.range (N + 1)).map fun i : ℕ => T * i / N with htl
  have hp : tl.Pairwise (· < ·) := by
    rw [htl, List.pairwise_map]
    refine List.pairwise_lt_range.imp fun {i j} hij => ?_
    have : (i : ℝ) < j := by exact_mod_cast hij
    exact (div_lt_div_iff_of_pos_right hN').mpr (mul_lt_mul_of_pos_left this hT)
  have hhead : tl.head? = some 0 := by simp [htl, List.head?_range]
  have hTl : ∀ t ∈ tl, t ≤ T := by
    intro t ht
    obtain ⟨i, hi, rfl⟩ := List.mem_map.mp ht
    have : (i : ℝ) ≤ N := by
      have := List.mem_range.mp hi
      exact_mod_cast Nat.lt_succ_iff.mp this
    rw [div_le_iff₀ hN']
    exact mul_le_mul_of_nonneg_left this hT.le
  have hch : tl.IsChain fun t1 t2 : ℝ => t2 - t1 ≤ T / N := by
    rw [List.isChain_iff_getElem]
    intro i hi
    simp only [htl, List.getElem_map, List.getElem_range]
    refine le_of_eq ?_
    push_cast
    ring
  have hch2 : tl.IsChain fun t1 t2 : ℝ => t2 - t1 ≤ h2 := hch.imp fun _ _ h => h.trans (hsmall.trans (min_le_right _ _))
  obtain ⟨tr, w', t', hrun⟩ := hruns tl 0 hhead hp hTl hch2
  obtain ⟨k1, k2, -⟩ := hconv (T / N) tl 0 tr w' t' (by positivity) (hsmall.trans (min_le_left _ _)) hhead hTl hch hrun
  have ht' : t' = T := by
    have : tl.getLast? = some T := by
      rw [htl, List.range_succ, List.map_append]
      simp
      field_simp
    rw [k1] at this
    exact Option.some.inj this
  subst ht'
  exact ⟨tr, w', hrun, k2⟩

end Arboris
