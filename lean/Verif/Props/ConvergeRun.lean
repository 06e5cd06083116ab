import Verif.Props.Converge
import Verif.Props.PDRun
import Mathlib.Analysis.ODE.ExistUnique

/-!
# C130: the exact motion is unique, the simulations that converge to it go to their end
-/

namespace Arboris
open Matrix Spec Mech Build Sim

variable {n : ℕ}

/-- a controller that reads at least one dof, of joints which have all the same number of dofs -/
def Spec.Suited {n : ℕ} {σ : Type} (w : MWorld n σ) : LibCtrl → Prop
  | .weight _ => True
  | .pd js _ => dofsOf w js ≠ [] ∧ ∃ d, ∀ i ∈ js, ∀ l : MLink, w.tree.links[i]? = some l → l.att.ndof = d

lemma sliding_cover : ∀ {ls : List MLink} {a e : ℕ}, Numbered a ls → a ≤ e → e < a + (ls.map fun l => l.att.ndof).sum → ∃ l ∈ ls, l.start ≤ e ∧ e < l.start + l.att.ndof
  | [], a, e, _, h1, h2 => by simp at h2; omega
  | l :: ls, a, e, h, h1, h2 => by
    have h0 := h.1
    by_cases he : e < a + l.att.ndof
    · exact ⟨l, by simp, by omega, by omega⟩
    · obtain ⟨l', hl', h3⟩ := sliding_cover h.2 (e := e) (by omega) (by rw [List.map_cons, List.sum_cons] at h2; omega)
      exact ⟨l', by simp [hl'], h3⟩

/-- coordinates of all the joints, hence of all the dofs -/
lemma pos_unique {w : MWorld n Unit} (hnum : Numbered 0 w.tree.links) (hn : ndof w.tree = n) (hs : ∀ l ∈ w.tree.links, Sliding l) {x y : Fin n → ℝ}
    (hx : ∀ l ∈ w.tree.links, HasPos x l) (hy : ∀ l ∈ w.tree.links, HasPos y l) : x = y := by
  funext e
  obtain ⟨l, hl, h1, h2⟩ := sliding_cover (e := e.val) hnum (Nat.zero_le _) (by have := e.isLt; simp only [ndof] at hn; omega)
  have h3 := hx l hl
  have h4 := hy l hl
  have h5 := hs l hl
  obtain ⟨att, start, p0, p1⟩ := l
  cases att with
  | lin k q dq =>
    obtain ⟨hb, e1⟩ := h3
    obtain ⟨hb', e2⟩ := h4
    dsimp only at e1 e2 hb h1
    have h2 : e.val < start + k.ndof := h2
    have := congrFun (e1.symm.trans e2) ⟨e.val - start, by omega⟩
    simp only [slice] at this
    have ee : (⟨start + (e.val - start), by omega⟩ : Fin n) = e := Fin.ext (by simp only; omega)
    rw [ee] at this
    exact this
  | free H T => exact h5.elim
  | fixed =>
    have h2 : e.val < start + 0 := h2
    dsimp only at h1
    omega

/-- C130.  The exact motion is unique. -/
theorem C130_unique {up : Vec3} {m : Body → ℝ} {c : Body → Vec3} {cs : List LibCtrl} {w w0 : MWorld n Unit} {t0 T : ℝ} {x u a x' u' a' : ℝ → Fin n → ℝ}
    (hw : SlidingWorld m c w) (hg : ∀ y ∈ cs, TameCtrl w y) (h0 : Mech.init w = .ok w0) (hM : SymPD (worldMass (worldDynamic n (linksOf w0))))
    (hx : ExactMotion up m cs w0 t0 T x u a) (hx' : ExactMotion up m cs w0 t0 T x' u' a') : ∀ t ∈ Set.Icc t0 T, x t = x' t ∧ u t = u' t := by
  obtain ⟨w0', h1, hst⟩ := init_started hw.dofs
  obtain rfl : w0 = w0' := Except.ok.inj (h0.symm.trans h1)
  have hg0 : ∀ y ∈ cs, TameCtrl w0 y := by
    intro y hy
    have := hg y hy
    cases y with
    | weight γ => trivial
    | pd js g => exact ⟨this.1, by rw [dofs_started hst]; exact this.2⟩
  obtain ⟨b, K, D, hK, hD, hf⟩ := forces_form up m w0 cs hg0
  set M := worldMass (worldDynamic n (linksOf w0)) with hMdef
  set B := worldViscosity (worldDynamic n (linksOf w0)) with hBdef
  have hi : M⁻¹ * M = 1 := Matrix.nonsing_inv_mul _ (isUnit_iff_ne_zero.mpr (Euler.det_ne hM))
  have hacc : ∀ {x u a : ℝ → Fin n → ℝ}, ExactMotion up m cs w0 t0 T x u a → ∀ t ∈ Set.Icc t0 T, a t = M⁻¹ *ᵥ b - (M⁻¹ * K) *ᵥ x t - (M⁻¹ * (D + B)) *ᵥ u t := by
    intro x u a hx t ht
    have h1 := hx.law t ht
    rw [hf] at h1
    have h2 : M *ᵥ a t = b - K *ᵥ x t - (D + B) *ᵥ u t := by
      rw [Matrix.add_mulVec, ← sub_sub, ← h1]
      abel
    rw [← Matrix.mulVec_mulVec, ← Matrix.mulVec_mulVec, ← Matrix.mulVec_sub, ← Matrix.mulVec_sub, ← h2, Matrix.mulVec_mulVec, hi, Matrix.one_mulVec]
  let L0 : ((Fin n → ℝ) × (Fin n → ℝ)) →ₗ[ℝ] ((Fin n → ℝ) × (Fin n → ℝ)) :=
    { toFun := fun y => (y.2, -((M⁻¹ * K) *ᵥ y.1) - (M⁻¹ * (D + B)) *ᵥ y.2)
      map_add' := fun y z => by
        simp only [Prod.fst_add, Prod.snd_add, Matrix.mulVec_add, Prod.mk_add_mk, Prod.mk.injEq, true_and]
        abel
      map_smul' := fun r y => by
        simp only [Prod.smul_fst, Prod.smul_snd, Matrix.mulVec_smul, RingHom.id_apply, Prod.smul_mk, smul_sub, smul_neg] }
  let L : ((Fin n → ℝ) × (Fin n → ℝ)) →L[ℝ] ((Fin n → ℝ) × (Fin n → ℝ)) := LinearMap.toContinuousLinearMap L0
  have hder : ∀ {x u a : ℝ → Fin n → ℝ}, ExactMotion up m cs w0 t0 T x u a → ∀ t ∈ Set.Icc t0 T, HasDerivAt (fun t => (x t, u t)) (L (x t, u t) + (0, M⁻¹ *ᵥ b)) t := by
    intro x u a hx t ht
    refine ((hx.dx t ht).prodMk (hx.du t ht)).congr_deriv ?_
    have e : L (x t, u t) = (u t, -((M⁻¹ * K) *ᵥ x t) - (M⁻¹ * (D + B)) *ᵥ u t) := rfl
    rw [e, hacc hx t ht, Prod.mk_add_mk, add_zero]
    congr 1
    abel
  have hini : x t0 = x' t0 := by
    have h2 : w0.tree.links.map (fun l => l.att.ndof) = w.tree.links.map fun l => l.att.ndof := by
      have h3 := hst.tree.links.1
      generalize w.tree.links = l1 at h3
      generalize w0.tree.links = l2 at h3
      induction h3 with
      | nil => rfl
      | cons h4 _ ih => rw [List.map_cons, List.map_cons, ih, h4]
    have h3 : ndof w0.tree = n := by
      unfold ndof
      rw [h2]
      exact hw.dofs
    obtain ⟨I, hs⟩ := sound_started (up := up) (cs := []) hw (by simp) hst
    exact pos_unique hst.numbered h3 (fun l hl => (hs.links l hl).1) hx.pos hx'.pos
  have key := ODE_solution_unique_of_mem_Icc_right (v := fun _ y => L y + (0, M⁻¹ *ᵥ b)) (s := fun _ => Set.univ) (K := ‖L‖₊) (a := t0) (b := T)
    (f := fun t => (x t, u t)) (g := fun t => (x' t, u' t))
    (fun t _ => by
      refine LipschitzWith.lipschitzOnWith ?_
      simpa using L.lipschitz.add (LipschitzWith.const (0, M⁻¹ *ᵥ b)))
    (fun t ht => (hder hx t ht).continuousAt.continuousWithinAt) (fun t ht => (hder hx t ⟨ht.1, ht.2.le⟩).hasDerivWithinAt) (fun _ _ => Set.mem_univ _)
    (fun t ht => (hder hx' t ht).continuousAt.continuousWithinAt) (fun t ht => (hder hx' t ⟨ht.1, ht.2.le⟩).hasDerivWithinAt) (fun _ _ => Set.mem_univ _)
    (by simp only [hini, hx.vel, hx'.vel])
  intro t ht
  have := key ht
  exact ⟨congrArg Prod.fst this, congrArg Prod.snd this⟩

/-! ### runs -/

lemma unturned_moved {dt : ℝ} {v : Fin n → ℝ} {w w' : MWorld n Unit} (hl : ∀ l ∈ w.tree.links, Sliding l ∧ RigidLink l) (h : ForestRel (Moved dt v) w.tree w'.tree) : Unturned w w' := by
  refine ⟨?_, ?_⟩
  · exact (dyn_slid h hl (still_ground n) (still_ground n) (slid_ground dt v)).imp fun x y hxy => ⟨hxy.1, hxy.2.2.2.jac, hxy.2.2.2.rot⟩
  · intro js
    rw [dofsOf_read, dofsOf_read]
    exact (moved_lists (read_moved h.links.1 js)).1

lemma suited_moved {dt : ℝ} {v : Fin n → ℝ} {w w' : MWorld n Unit} (hl : ∀ l ∈ w.tree.links, Sliding l ∧ RigidLink l) (h : ForestRel (Moved dt v) w.tree w'.tree) {y : LibCtrl}
    (hy : Suited w y) : Suited w' y := by
  cases y with
  | weight γ => trivial
  | pd js g =>
    obtain ⟨h1, d, hd⟩ := hy
    refine ⟨by rw [(unturned_moved hl h).dofs]; exact h1, d, fun i hi l hl => ?_⟩
    obtain ⟨l0, h0, h1⟩ := forall₂_get? h.links.1 hl
    rw [ndof_moved h1]
    exact hd i hi l0 h0

/-- what holds of the world at the beginning of every step -/
structure Calm (up : Vec3) (m : Body → ℝ) (c : Body → Vec3) (I : Body → Mat3) (cs : List LibCtrl) (w : MWorld n Unit) : Prop where
  sound : Sound up m c I [] w
  vel : ∀ l ∈ w.tree.links, HasVel w.gvel l
  tame : ∀ y ∈ cs, TameCtrl w y
  suited : ∀ y ∈ cs, Suited w y
  mass : SymPD (worldMass (worldDynamic n (linksOf w)))

section
variable {up : Vec3} {m : Body → ℝ} {c : Body → Vec3} {I : Body → Mat3} {cs : List LibCtrl}

lemma Calm.still {w : MWorld n Unit} (hw : Calm up m c I cs w) : ∀ x ∈ worldDynamic n (linksOf w), Still x.2 := by
  have hslid := dyn_slid (advance_rel hw.vel 0 0) hw.sound.links (still_ground n) (still_ground n) (slid_ground 0 0)
  intro x hx
  obtain ⟨y, -, hy⟩ := forall₂_left hslid x hx
  exact hy.2.1

lemma Calm.after {w w' : MWorld n Unit} (hw : Calm up m c I cs w) {v : Fin n → ℝ} {dt : ℝ} (ht : w'.tree = w.tree.map (advance v dt) id) (hc : w'.cons = [])
    (hv : w'.gvel = v) : Calm up m c I cs w' := by
  have hr := advance_rel hw.vel v dt
  rw [← ht] at hr
  have hsame := unturned_moved hw.sound.links hr
  refine ⟨sound_moved hw.sound hr hc, ?_, fun y hy => tame_unturned hsame.dofs (hw.tame y hy), fun y hy => suited_moved hw.sound.links hr (hw.suited y hy), ?_⟩
  · intro l hl
    rw [ht, links_map] at hl
    obtain ⟨l', hl', rfl⟩ := List.mem_map.mp hl
    rw [hv]
    exact (moved_advance v dt (hw.vel l' hl')).2
  · rw [(unturned_mass hsame.dyn).1]
    exact hw.mass

lemma Calm.bounds {w : MWorld n Unit} (hw : Calm up m c I cs w) : ∀ l ∈ w.tree.links, l.start + l.att.ndof ≤ n := by
  intro l hl
  have := hw.vel l hl
  obtain ⟨att, start, p0, p1⟩ := l
  cases att with
  | lin k q dq => exact this.choose
  | free H T => exact this.choose
  | fixed => exact this

/-- a controller does not raise, and resists -/
lemma Calm.ask1 {w : MWorld n Unit} (hw : Calm up m c I cs w) {a : MWorld n Unit} (ha : a.tree = w.tree)
    (hd : a.dyn = worldDynamic n (linksOf w)) {dt : ℝ} (hdt : 0 < dt) {y : LibCtrl} (hy : y ∈ cs) :
    ∃ v : CtrlVal n, y.update up a dt = .ok v ∧ ∀ z, z ⬝ᵥ v.impedance *ᵥ z ≤ 0 := by
  cases y with
  | weight γ =>
    have := weightUpdateE_ok γ up a.dyn (fun x hx => by rw [hd] at hx; exact (hw.still x hx).pose) (fun x hx hneg => by
      rw [hd] at hx
      obtain ⟨hr, h0, -⟩ := hw.sound.bodies _ (mem_dyn hx)
      have hz : m x.1 = 0 := by
        refine le_antisymm ?_ h0
        have := hneg 3 3
        simp only [hr.eq] at this
        simpa [blk] using this
      unfold gravityTwist
      rw [iadj_zero, hr.eq, hz, blk_mulVec]
      simp [tw_zero])
    exact ⟨_, this, fun z => by simp⟩
  | pd js g =>
    obtain ⟨h1, d, hsame⟩ := hw.suited _ hy
    obtain ⟨h2, h3⟩ := hw.tame _ hy
    have e : pdRead a js = pdRead w js := by unfold pdRead; rw [ha]
    have hb := hw.bounds
    have hs : ∀ p ∈ pdRead w js, ∀ p' ∈ pdRead w js, p.ndof = p'.ndof := by
      have key : ∀ p ∈ pdRead w js, p.ndof = d := by
        intro p hp
        obtain ⟨i, hi, he⟩ := List.mem_filterMap.mp hp
        obtain ⟨l, hl, rfl⟩ := Option.map_eq_some_iff.mp he
        rw [← hsame i hi l hl]
        have hs := (hw.sound.links l (List.mem_of_getElem? hl)).1
        obtain ⟨att, start, b0, b1⟩ := l
        cases att with
        | lin k q dq => simp [MLink.pd, PDJoint.ndof, JAttr.ndof]
        | free => exact hs.elim
        | fixed => rfl
      intro p hp p' hp'
      rw [key p hp, key p' hp']
    have hin : ∀ d ∈ pdDofMap (pdRead w js), d < n := by
      intro d hd
      obtain ⟨i, hi, hil, h4, h5⟩ := mem_pdDofMap hd
      have := hb _ (List.getElem_mem hil)
      omega
    have hnd : (pdDofMap (pdRead w js)).Nodup := pdDofMap_nodup hw.sound.num h2
    rw [dofsOf_read] at h1
    obtain ⟨v, hv, -⟩ := C34_law (n := n) g (pdRead w js) dt h1 hs hnd hin
    refine ⟨v, by show pdUpdate n g (pdRead a js) dt = _; rw [e]; exact hv, fun z => ?_⟩
    obtain ⟨q, hq⟩ := pos_exists _ _ hw.sound.num hb
    have f1 := pd_force hq hv (by rw [dofsOf_read]; exact hnd) z
    have f2 := pd_force hq hv (by rw [dofsOf_read]; exact hnd) 0
    rw [pd_form] at f1 f2
    simp only [Matrix.mulVec_zero, smul_zero, add_zero, sub_zero] at f2
    rw [f2, Matrix.mulVec_add _ q, Matrix.mulVec_smul] at f1
    have f3 : v.impedance *ᵥ z = -(dt • (((pick n (dofsOf w js))ᵀ * gains (dofsOf w js).length g.kp * pick n (dofsOf w js)) *ᵥ z)) -
        ((pick n (dofsOf w js))ᵀ * gains (dofsOf w js).length g.kd * pick n (dofsOf w js)) *ᵥ z := by
      refine add_left_cancel (f1.trans ?_)
      abel
    rw [f3, dotProduct_sub, dotProduct_neg, dotProduct_smul, pick_dot, pick_dot, smul_eq_mul]
    have g1 := mul_nonneg hdt.le (gains_dot h3.kp (pick n (dofsOf w js) *ᵥ z))
    have g2 := gains_dot h3.kd (pick n (dofsOf w js) *ᵥ z)
    linarith

lemma Calm.ask {w : MWorld n Unit} (hw : Calm up m c I cs w) {a : MWorld n Unit} (ha : a.tree = w.tree)
    (hd : a.dyn = worldDynamic n (linksOf w)) {dt : ℝ} (hdt : 0 < dt) : ∀ l : List LibCtrl, (∀ y ∈ l, y ∈ cs) →
    ∃ vals, askAll up a dt l = .ok vals ∧ ∀ z : Fin n → ℝ, z ⬝ᵥ (vals.map (·.impedance)).sum *ᵥ z ≤ 0
  | [], _ => ⟨[], rfl, fun z => by simp⟩
  | y :: l, h => by
    obtain ⟨v, hv, hz⟩ := hw.ask1 ha hd hdt (h y (by simp))
    obtain ⟨vs, hvs, hzs⟩ := hw.ask ha hd hdt l fun y hy => h y (by simp [hy])
    refine ⟨v :: vs, ?_, fun z => ?_⟩
    · unfold askAll
      simp only [hv, hvs]
    · rw [List.map_cons, List.sum_cons, Matrix.add_mulVec, dotProduct_add]
      exact add_nonpos (hz z) (hzs z)

/-- C130.  A sliding mechanism whose mass matrix is positive definite, with such controllers: no simulation of it raises, on any strictly increasing timeline. -/
theorem C130_runs {w w0 : MWorld n Unit} (hw : SlidingWorld m c w) (hg : ∀ y ∈ cs, TameCtrl w y) (hs : ∀ y ∈ cs, Suited w y) (h0 : Mech.init w = .ok w0)
    (hM : SymPD (worldMass (worldDynamic n (linksOf w0)))) {tl : List ℝ} (htl : tl ≠ []) (hp : tl.Pairwise (· < ·)) (k : ℕ) :
    ∃ tr w' t', simulate (engine (libPlug n up cs)) w tl (.list k) = (tr, .ok (w', t')) := by
  cases tl with
  | nil => exact absurd rfl htl
  | cons t0 rest =>
    obtain ⟨w0', h1, hst⟩ := init_started (w := w) hw.dofs
    obtain rfl : w0 = w0' := Except.ok.inj (h0.symm.trans h1)
    obtain ⟨I, hsd⟩ := sound_started (up := up) (cs := []) hw (by simp) hst
    have hr0 : Calm up m c I cs w0 := by
      refine ⟨hsd, hst.vel, fun y hy => ?_, fun y hy => ?_, hM⟩
      · have := hg y hy
        cases y with
        | weight γ => trivial
        | pd js g => exact ⟨this.1, by rw [dofs_started hst]; exact this.2⟩
      · have := hs y hy
        cases y with
        | weight γ => trivial
        | pd js g =>
          obtain ⟨h2, d, hd⟩ := this
          refine ⟨?_, d, fun i hi l hl => ?_⟩
          · have := dofs_started hst js
            rw [← List.length_pos_iff] at h2 ⊢
            omega
          · obtain ⟨l0, h0, h1⟩ := forall₂_get? hst.tree.links.1 hl
            rw [h1]
            exact hd i hi l0 h0
    have key : ∀ tr' e tr (w : MWorld n Unit), Calm up m c I cs w → loop (engine (libPlug n up cs)) k rest tr w t0 ≠ (tr', .error e) := by
      intro tr' e tr w hw hl
      refine (loop_error (E := engine (libPlug n up cs)) (I := Calm up m c I cs)
        (J := fun w => Calm up m c I cs w ∧ Fresh w) (Q := fun e => False)
        ?_ ?_ ?_ ?_ k rest tr tr' w t0 e hp hw hl).1
      · intro w hw
        have hval : ∀ l ∈ (w.tree.map MLink.link id).links, ValidLink l := by
          intro l hl
          rw [links_map] at hl
          obtain ⟨l0, hl0, rfl⟩ := List.mem_map.mp hl
          exact (hw.sound.links l0 hl0).2.valid
        have h1 := (C20_no_assertion n _ hval).2
        simp only [engine, dynamic, h1]
        exact ⟨_, rfl, ⟨⟨hw.sound.links, hw.sound.num, hw.sound.bodies, hw.sound.cons, hw.sound.ctrl⟩, hw.vel, hw.tame, hw.suited, hw.mass⟩,
          rfl, rfl, rfl, nl_slid hw.still⟩
      · rintro w dt hdt ⟨hw, hf⟩
        left
        obtain ⟨vals, hask, hres⟩ := hw.ask (a := w) rfl hf.dyn hdt cs fun y hy => hy
        have : ∃ o, updateControllers w.mass w.viscosity w.nleffects dt vals = .ok o := by
          have hz : (dt⁻¹ • w.mass + w.viscosity + w.nleffects - (vals.map (·.impedance)).sum).det ≠ 0 := by
            intro hdet
            obtain ⟨x, hx, h0⟩ := Matrix.exists_mulVec_eq_zero_iff.mpr hdet
            have hMx := hw.mass.2 x hx
            have hB := (C27_viscosity (worldDynamic n (linksOf w)) fun x hx => (hw.sound.bodies _ (mem_dyn hx)).2.2.2).2 x
            rw [hf.mass, hf.viscosity, hf.nleffects, hf.dyn] at h0
            have e4 := congrArg (x ⬝ᵥ ·) h0
            simp only [add_zero, Matrix.sub_mulVec, Matrix.add_mulVec, Matrix.smul_mulVec, dotProduct_sub, dotProduct_add, dotProduct_smul,
              smul_eq_mul, dotProduct_zero] at e4
            have := mul_pos (inv_pos.mpr hdt) hMx
            have := hres x
            linarith
          exact ⟨⟨_, _, _⟩, (C33_sum _ _ _ _ _ _).mpr ⟨hdt, hz, rfl, rfl, Matrix.nonsing_inv_mul _ (isUnit_iff_ne_zero.mpr hz)⟩⟩
        obtain ⟨o, ho⟩ := this
        simp only [engine, controllers, libPlug, hask, ho]
        exact ⟨_, rfl, ⟨⟨hw.sound.links, hw.sound.num, hw.sound.bodies, hw.sound.cons, hw.sound.ctrl⟩, hw.vel, hw.tame, hw.suited, hw.mass⟩,
          hf.dyn, hf.mass, hf.viscosity, hf.nleffects⟩
      · rintro w dt hdt ⟨hw, hf⟩
        simp only [engine, constraints, updateConstraints, if_pos hdt, hw.sound.cons, List.map_nil, writeBack]
        exact ⟨_, rfl, ⟨⟨hw.sound.links, hw.sound.num, hw.sound.bodies, rfl, hw.sound.ctrl⟩, hw.vel, hw.tame, hw.suited, hw.mass⟩,
          hf.dyn, hf.mass, hf.viscosity, hf.nleffects⟩
      · rintro w dt hdt ⟨hw, hf⟩
        simp only [engine, Mech.integrate, integrateGvel, if_pos hdt]
        exact ⟨_, rfl, hw.after rfl hw.sound.cons rfl⟩
    have h0' : (engine (libPlug n up cs)).init w = .ok w0 := h0
    simp only [simulate, h0', call]
    split
    · rename_i hl
      exact absurd hl (key _ _ _ _ hr0)
    · rename_i r _
      exact ⟨_, r.1, r.2, rfl⟩

end

/-! ### an example -/

lemma crane_sliding : SlidingWorld (fun _ => 1) (fun _ => 0) crane := by
  refine ⟨by simp [ndof, crane, Forest.links, JAttr.ndof, LinKind.ndof], ?_, ?_, rfl⟩
  · intro l hl
    simp only [crane, Forest.links, List.append_nil, List.mem_cons, List.not_mem_nil, or_false] at hl
    rcases hl with rfl | rfl
    · exact ⟨by simp [Sliding], isRigid_one, isRigid_one, fun H T h => by cases h⟩
    · exact ⟨by simp [Sliding], isRigid_one, isRigid_one, fun H T h => by cases h⟩
  · intro b hb
    simp only [crane, Forest.bodies, List.append_nil, List.mem_cons, List.not_mem_nil, or_false] at hb
    have hb : b = ⟨1, 0⟩ := by rcases hb with rfl | rfl <;> rfl
    subst hb
    refine ⟨?_, zero_le_one, ?_, ?_⟩
    · exact ⟨1, Matrix.transpose_one, by simp [skew_zero, blk_one]⟩
    · exact ⟨Matrix.transpose_one, fun x => by rw [Matrix.one_mulVec]; exact Finset.sum_nonneg fun i _ => mul_self_nonneg _⟩
    · exact ⟨Matrix.transpose_zero, fun x => by simp⟩

/-- the links of the crane, numbered -/
def craneLinks : MLink × MLink := ⟨⟨.lin .Tx (fun _ => 1) (fun _ => 2), 0, 1, 1⟩, ⟨.lin .Tz (fun _ => -3) (fun _ => 5), 1, 1, 1⟩⟩

lemma crane_mass {w0 : MWorld 2 Unit} (h : Mech.init crane = .ok w0) : SymPD (worldMass (worldDynamic 2 (linksOf w0))) := by
  have ht : w0.tree = .cons craneLinks.1 ⟨1, 0⟩ (.cons craneLinks.2 ⟨1, 0⟩ .nil .nil) .nil := by
    obtain rfl := Except.ok.inj h
    rfl
  have hd : worldDynamic 2 (linksOf w0) = [(⟨1, 0⟩, dynStep (groundDyn 2) craneLinks.1.link), (⟨1, 0⟩, dynStep (dynStep (groundDyn 2) craneLinks.1.link) craneLinks.2.link)] := by
    unfold linksOf
    rw [ht]
    rfl
  have h1 : SymPSD (1 : Mat6) := ⟨Matrix.transpose_one, fun x => by rw [Matrix.one_mulVec]; exact Finset.sum_nonneg fun i _ => mul_self_nonneg _⟩
  have h2 : SymPD (1 : Mat6) := by
    refine ⟨Matrix.transpose_one, fun x hx => ?_⟩
    rw [Matrix.one_mulVec]
    obtain ⟨i, hi⟩ := Function.ne_iff.mp hx
    exact Finset.sum_pos' (fun i _ => mul_self_nonneg _) ⟨i, Finset.mem_univ i, mul_self_pos.mpr hi⟩
  have s1 : Slider craneLinks.1.link := slider_of (by simp [Sliding, craneLinks]) ⟨isRigid_one, isRigid_one, fun H T h => by cases h⟩
  have s2 : Slider craneLinks.2.link := slider_of (by simp [Sliding, craneLinks]) ⟨isRigid_one, isRigid_one, fun H T h => by cases h⟩
  rw [hd]
  refine C27_pd _ ?_ ?_
  · intro x hx
    simp only [List.mem_cons, List.not_mem_nil, or_false] at hx
    rcases hx with rfl | rfl <;> exact h1
  · intro ν hν
    refine ⟨_, List.mem_cons_of_mem _ (List.mem_cons_self ..), h2, fun h0 => hν ?_⟩
    dsimp only at h0
    rw [step_jac (still_step (still_ground 2) s1) s2, step_jac (still_ground 2) s1, lin_tw] at h0
    have j1 : craneLinks.1.link.joint.jac *ᵥ (selMat 2 craneLinks.1.link.start craneLinks.1.link.k *ᵥ ν) = tw 0 ![ν 0, 0, 0] := by
      have e : ∀ y : Fin 1 → ℝ, y 0 = ν 0 → (!![0; 0; 0; 1; 0; 0] : Matrix (Fin 6) (Fin 1) ℝ) *ᵥ y = tw 0 ![ν 0, 0, 0] := fun y hy => by rw [col6, col3, hy]; simp
      exact e _ (congrFun (selMat_mulVec ν 0 1 (by norm_num)) 0)
    have j2 : craneLinks.2.link.joint.jac *ᵥ (selMat 2 craneLinks.2.link.start craneLinks.2.link.k *ᵥ ν) = tw 0 ![0, 0, ν 1] := by
      have e : ∀ y : Fin 1 → ℝ, y 0 = ν 1 → (!![0; 0; 0; 0; 0; 1] : Matrix (Fin 6) (Fin 1) ℝ) *ᵥ y = tw 0 ![0, 0, ν 1] := fun y hy => by rw [col6, col3, hy]; simp
      exact e _ (congrFun (selMat_mulVec ν 1 1 (by norm_num)) 0)
    have b0 : craneLinks.2.link.bpose0 = 1 ∧ craneLinks.2.link.bpose1 = 1 ∧ craneLinks.1.link.bpose1 = 1 := ⟨rfl, rfl, rfl⟩
    have r1 : rot (1 : Mat4) = 1 := by rw [← mkH_one, rot_mkH]
    have g0 : (groundDyn 2).jac = 0 := rfl
    have l0 : lin (0 : Vec6) = 0 := rfl
    rw [j1, j2, lin_tw, lin_tw, b0.1, b0.2.1, b0.2.2, r1, g0, Matrix.zero_mulVec, l0, Matrix.mulVec_zero, zero_add, Matrix.transpose_one, Matrix.one_mul, Matrix.transpose_one,
      Matrix.one_mulVec, Matrix.one_mulVec, Matrix.one_mulVec] at h0
    have k0 := congrFun h0 3
    have k1 := congrFun h0 5
    funext i
    fin_cases i
    · simpa [tw] using k0
    · simpa [tw] using k1

/-- the spring and the damper of the horizontal joint, which it pulls to the right -/
def craneSpring : PDGains := ⟨fun _ _ => 40, fun _ _ => 3, fun _ => 7, fun _ => 1⟩

/-- C130 (its hypotheses can be met): one joint of the crane is held by a spring and a damper, the other one is free to fall.  The simulations converge. -/
theorem C130_example : ∃ w0, Mech.init crane = .ok w0 ∧ ∃ x u a, ExactMotion ![0, 0, 1] (fun _ => 1) [.pd [0] craneSpring, .weight (-9.81)] w0 0 10 x u a ∧
    ∃ C, 0 ≤ C ∧ ∀ N : ℕ, 0 < N → ∃ tr w' t', t' = 10 ∧
      simulate (engine (libPlug 2 ![0, 0, 1] [.pd [0] craneSpring, .weight (-9.81)])) crane ((List.range (N + 1)).map fun i : ℕ => (10 : ℝ) * i / N) (.list 0) = (tr, .ok (w', t')) ∧
      CloseTo (x 10) (u 10) (C * (10 / N)) w' := by
  have hw := crane_sliding
  have hd : dofsOf crane [0] = [0] := by simp [dofsOf, crane, Forest.links, LinKind.ndof]
  have hg : ∀ y ∈ [LibCtrl.pd [0] craneSpring, .weight (-9.81)], TameCtrl crane y := by
    intro y hy
    simp only [List.mem_cons, List.not_mem_nil, or_false] at hy
    rcases hy with rfl | rfl
    · refine ⟨by simp, ?_⟩
      rw [hd]
      refine ⟨fun _ _ _ _ => rfl, fun x => ?_, fun x => ?_⟩
      · simp [craneSpring]
        nlinarith [sq_nonneg (x 0)]
      · simp [craneSpring]
        nlinarith [sq_nonneg (x 0)]
    · trivial
  have hs : ∀ y ∈ [LibCtrl.pd [0] craneSpring, .weight (-9.81)], Suited crane y := by
    intro y hy
    simp only [List.mem_cons, List.not_mem_nil, or_false] at hy
    rcases hy with rfl | rfl
    · refine ⟨by rw [hd]; simp, 1, ?_⟩
      intro i hi l hl
      obtain rfl : i = 0 := by simpa using hi
      obtain rfl : _ = l := by simpa [crane, Forest.links] using hl
      rfl
    · trivial
  obtain ⟨w0, h0, hex⟩ := C130_exists (up := ![0, 0, 1]) hw hg
  obtain ⟨x, u, a, hx⟩ := hex (crane_mass h0) 0 10
  obtain ⟨C, hC, hconv⟩ := C130_converges hw hg h0 (crane_mass h0) hx
  refine ⟨w0, h0, x, u, a, hx, C, hC, fun N hN => ?_⟩
  have hN' : (0 : ℝ) < N := by exact_mod_cast hN
  set tl := (List.range (N + 1)).map fun i : ℕ => (10 : ℝ) * i / N with htl
  have hne : tl ≠ [] := by simp [htl]
  have hp : tl.Pairwise (· < ·) := by
    rw [htl, List.pairwise_map]
    refine List.pairwise_lt_range.imp fun {i j} hij => ?_
    have : (i : ℝ) < j := by exact_mod_cast hij
    exact (div_lt_div_iff_of_pos_right hN').mpr (by linarith)
  obtain ⟨tr, w', t', hrun⟩ := C130_runs (up := ![0, 0, 1]) hw hg hs h0 (crane_mass h0) hne hp 0
  have hhead : tl.head? = some 0 := by simp [htl, List.head?_range]
  have hT : ∀ t ∈ tl, t ≤ 10 := by
    intro t ht
    obtain ⟨i, hi, rfl⟩ := List.mem_map.mp ht
    have : (i : ℝ) ≤ N := by
      have := List.mem_range.mp hi
      exact_mod_cast Nat.lt_succ_iff.mp this
    rw [div_le_iff₀ hN']
    linarith
  have hch : tl.IsChain fun t1 t2 : ℝ => t2 - t1 ≤ 10 / N := by
    rw [List.isChain_iff_getElem]
    intro i hi
    simp only [htl, List.getElem_map, List.getElem_range]
    refine le_of_eq ?_
    push_cast
    ring
  obtain ⟨k1, k2, -⟩ := hconv (10 / N) tl 0 tr w' t' (by positivity) hhead hT hch hrun
  have ht' : t' = 10 := by
    have : tl.getLast? = some 10 := by
      rw [htl, List.range_succ, List.map_append]
      simp
      field_simp
    rw [k1] at this
    exact Option.some.inj this
  subst ht'
  exact ⟨tr, w', 10, rfl, hrun, k2⟩

end Arboris
