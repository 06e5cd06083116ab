import Verif.Props.EnergyMonitor
import Verif.Props.EnergyFly

/-!
# C134: what an `EnergyMonitor` logs during a simulation of a mechanism that flies
-/

namespace Arboris
open Matrix Spec Mech Build Sim

variable {n : ℕ}

namespace Fly

lemma potential_any (up : Vec3) (c : Body → Vec3) (m : Body → ℝ) (bs : List (Body × BodyDyn n)) (hm : ∀ x ∈ bs, x.1.mass 3 3 = m x.1) (a : ℝ) :
    (bs.zip (bs.map fun x => (![c x.1 0, c x.1 1, c x.1 2, 1] : Fin 4 → ℝ))).foldl (fun acc x =>
      acc + x.1.1.mass 3 3 * ((![(x.1.2.pose *ᵥ x.2) 0, (x.1.2.pose *ᵥ x.2) 1, (x.1.2.pose *ᵥ x.2) 2] : Vec3) ⬝ᵥ up)) a =
    a + (bs.map fun x => massHeight up x.2.pose (m x.1) (c x.1)).sum := by
  induction bs generalizing a with
  | nil => simp
  | cons x l ih =>
    simp only [List.map_cons, List.zip_cons_cons, List.foldl_cons, List.sum_cons]
    rw [ih (fun y hy => hm y (List.mem_cons_of_mem _ hy)), hm x List.mem_cons_self, ← add_assoc]
    congr 2
    simp [massHeight, pointOf, rot, pos, Matrix.mulVec, dotProduct, Fin.sum_univ_three, Fin.sum_univ_four]
    left; ring

/-- an update logs the kinetic energy and 9.81 times the heights, whatever the poses -/
lemma monitor_any {up : Vec3} {m : Body → ℝ} {c : Body → Vec3} {I : Body → Mat3} {v : MWorld n Unit}
    (hI : ∀ b ∈ v.tree.bodies, IsRigidMass b.mass (m b) (c b) (I b)) (hd : v.dyn = worldDynamic n (linksOf v)) (hmass : v.mass = worldMass v.dyn) :
    ∃ Ec Ep, Ec + Ep = totalEnergy up m c [.weight (-9.81)] v ∧ ∀ (t : ℝ) (log : EnergyLog),
      energyUpdate log (v.tree.bodies.map fun b => ![c b 0, c b 1, c b 2, 1]) t up v.gvel v.mass v.dyn =
        ⟨log.time ++ [t], log.kinetic ++ [Ec], log.potential ++ [Ep], log.mechanical ++ [Ec + Ep]⟩ := by
  refine ⟨(v.gvel ⬝ᵥ v.mass *ᵥ v.gvel) / 2, 9.81 * ((worldDynamic n (linksOf v)).map fun x => massHeight up x.2.pose (m x.1) (c x.1)).sum, ?_, fun t log => ?_⟩
  · simp only [totalEnergy, Spec.potential, List.map_cons, List.map_nil, List.sum_cons, List.sum_nil, ← hd, ← hmass]
    ring
  have e : (worldDynamic n (linksOf v)).map Prod.fst = v.tree.bodies := by
    rw [worldDynamic, show (Prod.fst : Body × BodyDyn n → Body) = (·.1) from rfl, dyn_bodies, linksOf, bodies_map]
  rw [← hd] at e ⊢
  have hm : ∀ x ∈ v.dyn, x.1.mass 3 3 = m x.1 := fun x hx => mass33 (hI _ (e ▸ List.mem_map_of_mem hx))
  have h1 := potential_any up c m v.dyn hm 0
  have e1 : v.tree.bodies.map (fun b => (![c b 0, c b 1, c b 2, 1] : Fin 4 → ℝ)) = v.dyn.map fun x => ![c x.1 0, c x.1 1, c x.1 2, 1] := by
    rw [← e, List.map_map]; rfl
  simp only [energyUpdate, e1, h1, zero_add]
  rw [mul_comm (9.81 : ℝ)]

end Fly

open Fly in
/-- C134.  A mechanism that flies (free joints attached to the ground, as those which turn around several axes; other joints turn around one axis or slide), without
viscosity, made of bodies with (positive definite) masses, under its weight: `init` of an `EnergyMonitor` raises nothing, and during a simulation it logs a
mechanical energy at the start of each step, which is that of the initial state, up to `C h` when the steps are at most `h`. -/
theorem C134_monitor {up : Vec3} {m : Body → ℝ} {c : Body → Vec3} {eig : Mat3 → Mat3} {w w0 : MWorld n Unit} {t0 T : ℝ} {x u a : ℝ → Fin n → ℝ}
    {P : ℝ → Fin n → Fin 4 → Fin 4 → ℝ} (hw : FlyingWorld m c w) (hp : PlainTree w) (hm : ∀ b ∈ w.tree.bodies, 1e-10 < m b ∨ m b • c b = 0)
    (hpd : ∀ b ∈ w.tree.bodies, SymPD b.mass ∧ EigOk eig b.mass) (hv : ∀ b ∈ w.tree.bodies, b.viscosity = 0)
    (hi : Mech.init w = .ok w0) (hx : FlyPath up m c [.weight (-9.81)] w0 t0 T x P u a) :
    ∃ com, energyInit eig w0.tree.bodies = .ok com ∧ ∃ C ≥ 0, ∃ hmax > 0, ∀ (h : ℝ) (tl : List ℝ) (k i : ℕ) (tr : List (Ev (MWorld n Unit))) (w' : MWorld n Unit) (t' : ℝ),
      0 ≤ h → h ≤ hmax → tl.head? = some t0 → (∀ t ∈ tl, t ≤ T) → tl.IsChain (fun t1 t2 => t2 - t1 ≤ h) → i < k →
      simulate (engine (libPlug n up [.weight (-9.81)])) w tl (.list k) = (tr, .ok (w', t')) →
      (monitored com up ⟨[], [], [], []⟩ (updatesOf i tr)).time = tl.dropLast ∧
      (monitored com up ⟨[], [], [], []⟩ (updatesOf i tr)).mechanical.length = tl.length - 1 ∧
      ∀ E ∈ (monitored com up ⟨[], [], [], []⟩ (updatesOf i tr)).mechanical, |E - totalEnergy up m c [.weight (-9.81)] w0| ≤ C * h := by
  obtain ⟨w0', h1, hst⟩ := init_started hw.dofs
  obtain rfl : w0 = w0' := Except.ok.inj (hi.symm.trans h1)
  have hbod : w0.tree.bodies = w.tree.bodies := hst.tree.links.2.symm
  choose I hI using fun b : Body => (Classical.em (b ∈ w.tree.bodies)).elim (fun hb => (hw.bodies b hb).1.imp fun I h => (fun _ => h : b ∈ w.tree.bodies → IsRigidMass b.mass (m b) (c b) I))
    (fun hb => ⟨(0 : Mat3), fun h => absurd h hb⟩)
  refine ⟨_, energyInit_ok (m := m) (c := c) (I := I) (fun b hb => hI b (hbod ▸ hb)) (fun b hb => (hpd b (hbod ▸ hb)).1) (fun b hb => (hpd b (hbod ▸ hb)).2), ?_⟩
  obtain ⟨C, hC, hmax, hpos, hs⟩ := C134_drift hw hp hm (cs := [.weight (-9.81)]) (by simp [PlainCtrl]) (by simp [SpringCtrl]) hv (by simp [UndampedCtrl]) hi hx
  refine ⟨C, hC, hmax, hpos, fun h tl k i tr w' t' hh hhm hhead hTl hch hik hrun => ?_⟩
  obtain ⟨-, seen, e1, e2⟩ := hs h tl k tr w' t' hh hhm hhead hTl hch hrun
  obtain ⟨t1, rest, w1, seen1, f1, f2, f3, f4, f5⟩ := C87_run hw.dofs hrun
  have hsame : seen1.map (fun o => (o.1, o.2.2)) = seen.map fun o => (o.1, o.2.2) := by
    rw [← updates_run hik t0 w0 tl seen, ← e1, f4, updates_run hik]
  have hup : updatesOf i tr = seen1.map fun o => (o.1, o.2.2) := by rw [f4, updates_run hik]
  have hfacts : ∀ x ∈ updatesOf i tr, ∃ Ec Ep, |Ec + Ep - totalEnergy up m c [.weight (-9.81)] w0| ≤ C * h ∧ ∀ log : EnergyLog,
      energyUpdate log (w0.tree.bodies.map fun b => ![c b 0, c b 1, c b 2, 1]) x.1 up x.2.gvel x.2.mass x.2.dyn =
        ⟨log.time ++ [x.1], log.kinetic ++ [Ec], log.potential ++ [Ep], log.mechanical ++ [Ec + Ep]⟩ := by
    intro x hxm
    have hxs := hxm
    rw [hup] at hxm
    obtain ⟨s, hs1, rfl⟩ := List.mem_map.mp hxm
    rw [hup, hsame] at hxs
    obtain ⟨s', hs2, hss⟩ := List.mem_map.mp hxs
    obtain ⟨g1, g2⟩ := Prod.mk.inj hss
    have hev : Ev.obsUpdate i s.2.1 s.1 s.2.2 ∈ tr := by
      rw [f4]
      simp only [runCalls, List.mem_append, List.mem_flatMap, stepCalls]
      exact .inl (.inr ⟨s, hs1, .inl (.inr (List.mem_map.mpr ⟨i, List.mem_range.mpr hik, rfl⟩))⟩)
    obtain ⟨-, q2, q3, q4, -, q6, -, -⟩ := C87_seen hw.dofs hrun hev
    obtain ⟨Ec, Ep, r1, r2⟩ := monitor_any (up := up) (m := m) (c := c) (I := I) (v := s.2.2) (fun b hb => hI b (q2 ▸ hb)) q4 q6
    refine ⟨Ec, Ep, ?_, fun log => ?_⟩
    · rw [r1, ← g2]; exact e2 s' hs2
    · rw [hbod, ← q2]; exact r2 s.1 log
  choose! ec ep hb1 hb2 using hfacts
  have hm' := monitored_lists hb2 ⟨[], [], [], []⟩
  rw [hm']
  refine ⟨?_, ?_, ?_⟩
  · rw [← evolves_times f3, hup]; simp [Function.comp_def]
  · have := congrArg List.length (evolves_times f3)
    rw [List.length_map, List.length_dropLast] at this
    simp [hup, this]
  · intro E hE
    simp only [List.nil_append, List.mem_map] at hE
    obtain ⟨x, hxm, rfl⟩ := hE
    exact hb1 x hxm

/-- the body of `C134_example` meets the hypotheses of `C134_monitor` -/
example : ∃ w0, Mech.init disc = .ok w0 ∧ ∃ T > 0, ∃ x P u a, FlyPath ![0, 0, 1] (fun _ => 1) (fun _ => 0) [.weight (-9.81)] w0 0 T x P u a ∧
    FlyingWorld (fun _ => 1) (fun _ => 0) disc ∧ PlainTree disc ∧
    ∀ b ∈ disc.tree.bodies, SymPD b.mass ∧ EigOk (fun _ => 1) b.mass ∧ b.viscosity = 0 := by
  have hw := disc_flying
  obtain ⟨w0, h0, -⟩ := init_started hw.dofs
  have hM : (worldMass (worldDynamic 6 (linksOf w0))).det ≠ 0 := by
    have htree : linksOf w0 = linksOf disc := by
      obtain rfl := Except.ok.inj h0
      rfl
    rw [htree, disc_dyn]
    simp [worldMass]
  obtain ⟨T, hT, x, P, u, a, hx⟩ := C133_exists (up := ![0, 0, 1]) (cs := [.weight (-9.81)]) hw h0 hM 0
  refine ⟨w0, h0, T, hT, x, P, u, a, by simpa using hx, hw, disc_plain, fun b hb => ?_⟩
  simp only [disc, Forest.bodies, List.append_nil, List.mem_singleton] at hb
  subst hb
  refine ⟨⟨Matrix.transpose_one, fun v hv => ?_⟩, ⟨by simp, ![1, 1, 1], ?_⟩, rfl⟩
  · rw [Matrix.one_mulVec]
    rcases lt_or_eq_of_le (Finset.sum_nonneg fun i _ => mul_self_nonneg (v i) : 0 ≤ v ⬝ᵥ v) with h | h
    · exact h
    · exact absurd (dotProduct_self_eq_zero.mp h.symm) hv
  · have h1 : b11 (1 : Mat6) = 1 ∧ b12 (1 : Mat6) = 0 := by
      rw [← blk_one]; simp
    have h2 : Matrix.diagonal (![1,1,1] : Vec3) = 1 := by
      ext i j; fin_cases i <;> fin_cases j <;> simp
    rw [IsEig, h2, centralInertia, h1.1, h1.2]
    simp

end Arboris
