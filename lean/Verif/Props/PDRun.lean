import Verif.Props.PDSettle

/-!
# C118, the end: simulations under proportional-derivative control go to the end, and to rest
-/

namespace Arboris
open Matrix Spec Mech Build Sim

variable {n : ℕ}

/-- the joints of ranks `js` have the same number of dofs, and have all the dofs of the world, of which there is one at least -/
structure Spec.Driven (js : List ℕ) (w : MWorld n Unit) : Prop where
  dofs : 0 < n
  all : (gposOf w js).length = n
  same : ∃ d, ∀ i ∈ js, ∀ l : MLink, w.tree.links[i]? = some l → l.att.ndof = d

lemma ndof_moved {dt : ℝ} {v : Fin n → ℝ} {l l' : MLink} (h1 : Moved dt v l l') : l'.att.ndof = l.att.ndof := by
  obtain ⟨att, start, b0, b1⟩ := l
  obtain ⟨att', start', b0', b1'⟩ := l'
  have := h1.joint
  cases this <;> rfl

lemma sound_moved {up : Vec3} {m : Body → ℝ} {c : Body → Vec3} {I : Body → Mat3} {cs : List LibCtrl} {dt : ℝ} {v : Fin n → ℝ} {w w' : MWorld n Unit}
    (hw : Sound up m c I cs w) (h : ForestRel (Moved dt v) w.tree w'.tree) (hc : w'.cons = []) : Sound up m c I cs w' := by
  refine ⟨?_, numbered_slid h.links.1 hw.num, ?_, hc, ?_⟩
  · intro l hl
    obtain ⟨l0, hl0, hm0⟩ := h.mem hl
    exact ⟨(slid_of (hw.links l0 hl0).1 hm0).2, rigid_moved (hw.links l0 hl0).1 (hw.links l0 hl0).2 hm0⟩
  · rw [← h.links.2]
    exact hw.bodies
  · intro x hx
    have := hw.ctrl x hx
    cases x with
    | weight γ => trivial
    | pd js g =>
      refine ⟨this.1, ?_⟩
      rw [gposOf_read, (moved_lists (read_moved h.links.1 js)).2.1, ← gposOf_read]
      exact this.2

lemma forall₂_get? {α β : Type} {R : α → β → Prop} {l : List α} {l' : List β} (h : List.Forall₂ R l l') {i : ℕ} {y : β} (hy : l'[i]? = some y) :
    ∃ x, l[i]? = some x ∧ R x y := by
  induction h generalizing i with
  | nil => simp at hy
  | cons h1 _ ih =>
    cases i with
    | zero =>
      obtain rfl : _ = y := by simpa using hy
      exact ⟨_, by simp, h1⟩
    | succ i =>
      obtain ⟨x, hx, hr⟩ := ih (i := i) (by simpa using hy)
      exact ⟨x, by simpa using hx, hr⟩

lemma driven_moved {js : List ℕ} {dt : ℝ} {v : Fin n → ℝ} {w w' : MWorld n Unit} (hw : Driven js w) (h : ForestRel (Moved dt v) w.tree w'.tree) : Driven js w' := by
  refine ⟨hw.dofs, ?_, ?_⟩
  · rw [gposOf_read, (moved_lists (read_moved h.links.1 js)).2.1, ← gposOf_read]
    exact hw.all
  · obtain ⟨d, hd⟩ := hw.same
    refine ⟨d, fun i hi l hl => ?_⟩
    obtain ⟨l0, h0, h1⟩ := forall₂_get? h.links.1 hl
    rw [ndof_moved h1]
    exact hd i hi l0 h0

lemma driven_started {js : List ℕ} {w w' : MWorld n Unit} (hw : Driven js w) (h : Started w w') : Driven js w' := by
  refine ⟨hw.dofs, by rw [gposOf_started h]; exact hw.all, ?_⟩
  obtain ⟨d, hd⟩ := hw.same
  refine ⟨d, fun i hi l hl => ?_⟩
  obtain ⟨l0, h0, h1⟩ := forall₂_get? h.tree.links.1 hl
  rw [h1]
  exact hd i hi l0 h0

/-- what holds of the world at the beginning of every step -/
structure Ready (up : Vec3) (m : Body → ℝ) (c : Body → Vec3) (I : Body → Mat3) (js : List ℕ) (g : PDGains) (ws : List LibCtrl) (w : MWorld n Unit) : Prop where
  sound : Sound up m c I (.pd js g :: ws) w
  vel : ∀ l ∈ w.tree.links, HasVel w.gvel l
  driven : Driven js w

section
variable {up : Vec3} {m : Body → ℝ} {c : Body → Vec3} {I : Body → Mat3} {js : List ℕ} {g : PDGains} {ws : List LibCtrl}

lemma advance_rel {w : MWorld n Unit} (hv : ∀ l ∈ w.tree.links, HasVel w.gvel l) (v : Fin n → ℝ) (dt : ℝ) :
    ForestRel (Moved dt v) w.tree (w.tree.map (advance v dt) id) :=
  ForestRel.of_map _ _ fun l hl => (moved_advance v dt (hv l hl)).1

lemma Ready.still {w : MWorld n Unit} (hw : Ready up m c I js g ws w) : ∀ x ∈ worldDynamic n (linksOf w), Still x.2 := by
  have hslid := dyn_slid (advance_rel hw.vel 0 0) hw.sound.links (still_ground n) (still_ground n) (slid_ground 0 0)
  intro x hx
  obtain ⟨y, -, hy⟩ := forall₂_left hslid x hx
  exact hy.2.1

lemma Ready.after {w w' : MWorld n Unit} (hw : Ready up m c I js g ws w) {v : Fin n → ℝ} {dt : ℝ} (ht : w'.tree = w.tree.map (advance v dt) id) (hc : w'.cons = [])
    (hv : w'.gvel = v) : Ready up m c I js g ws w' := by
  have hr := advance_rel hw.vel v dt
  rw [← ht] at hr
  refine ⟨sound_moved hw.sound hr hc, ?_, driven_moved hw.driven hr⟩
  intro l hl
  rw [ht, links_map] at hl
  obtain ⟨l', hl', rfl⟩ := List.mem_map.mp hl
  rw [hv]
  exact (moved_advance v dt (hw.vel l' hl')).2

lemma Ready.inside {w : MWorld n Unit} (hw : Ready up m c I js g ws w) : ∀ d ∈ pdDofMap (pdRead w js), d < n := by
  intro d hd
  obtain ⟨i, hi, hil, h1, h2⟩ := mem_pdDofMap hd
  have := ((hasVel_iff _ _).mp (hw.vel _ (List.getElem_mem hil))).1
  omega

lemma Ready.len {w : MWorld n Unit} (hw : Ready up m c I js g ws w) : (pdDofMap (pdRead w js)).length = n := by
  refine Eq.trans ?_ hw.driven.all
  rw [gposOf_read]
  have := pd_lengths (pdRead w js)
  omega

lemma Ready.nodup {w : MWorld n Unit} (hw : Ready up m c I js g ws w) : (pdDofMap (pdRead w js)).Nodup :=
  pdDofMap_nodup hw.sound.num (hw.sound.ctrl (.pd js g) (by simp)).1

lemma Ready.gains {w : MWorld n Unit} (hw : Ready up m c I js g ws w) : GoodGains n g := by
  have := (hw.sound.ctrl (.pd js g) (by simp)).2
  rwa [hw.driven.all] at this

lemma Ready.same {w : MWorld n Unit} (hw : Ready up m c I js g ws w) : ∀ p ∈ pdRead w js, ∀ p' ∈ pdRead w js, p.ndof = p'.ndof := by
  obtain ⟨d, hd⟩ := hw.driven.same
  have key : ∀ p ∈ pdRead w js, p.ndof = d := by
    intro p hp
    obtain ⟨i, hi, he⟩ := List.mem_filterMap.mp hp
    obtain ⟨l, hl, rfl⟩ := Option.map_eq_some_iff.mp he
    rw [← hd i hi l hl]
    have hs := (hw.sound.links l (List.mem_of_getElem? hl)).1
    obtain ⟨att, start, b0, b1⟩ := l
    cases att with
    | lin k q dq => simp [MLink.pd, PDJoint.ndof, JAttr.ndof]
    | free => exact hs.elim
    | fixed => rfl
  intro p hp p' hp'
  rw [key p hp, key p' hp']

/-- the controllers do not raise -/
lemma Ready.ask {w : MWorld n Unit} (hw : Ready up m c I js g ws w) (hws : ∀ x ∈ ws, ∃ γ, x = .weight γ) {a : MWorld n Unit} (ha : a.tree = w.tree)
    (hd : a.dyn = worldDynamic n (linksOf w)) (dt : ℝ) : ∃ vals, askAll up a dt (.pd js g :: ws) = .ok vals := by
  have hwt : ∀ γ, ∃ v, weightUpdateE γ up a.dyn = .ok v := by
    intro γ
    rw [hd]
    refine ⟨_, weightUpdateE_ok γ up _ (fun x hx => (hw.still x hx).pose) ?_⟩
    intro x hx hneg
    obtain ⟨hr, h0, -⟩ := hw.sound.bodies _ (mem_dyn hx)
    have hz : m x.1 = 0 := by
      refine le_antisymm ?_ h0
      have := hneg 3 3
      simp only [hr.eq] at this
      simpa [blk] using this
    unfold gravityTwist
    rw [iadj_zero, hr.eq, hz, blk_mulVec]
    simp [tw_zero]
  have hrest : ∀ l : List LibCtrl, (∀ x ∈ l, ∃ γ, x = .weight γ) → ∃ vals, askAll up a dt l = .ok vals := by
    intro l hl
    induction l with
    | nil => exact ⟨_, rfl⟩
    | cons x l ih =>
      obtain ⟨γ, rfl⟩ := hl x (by simp)
      obtain ⟨v, hv⟩ := hwt γ
      obtain ⟨vs, hvs⟩ := ih fun y hy => hl y (by simp [hy])
      refine ⟨v :: vs, ?_⟩
      unfold askAll
      simp only [LibCtrl.update, hv, hvs]
  obtain ⟨vs, hvs⟩ := hrest ws hws
  have e : pdRead a js = pdRead w js := by unfold pdRead; rw [ha]
  have hne : pdDofMap (pdRead w js) ≠ [] := by
    intro h
    have := hw.len
    rw [h] at this
    have := hw.driven.dofs
    simp at *
    omega
  obtain ⟨v, hv, -⟩ := C34_law (n := n) g (pdRead w js) dt hne hw.same hw.nodup hw.inside
  refine ⟨v :: vs, ?_⟩
  unfold askAll
  simp only [LibCtrl.update, e, hv, hvs]

/-- the controlled dofs, as an enumeration of all the dofs; and the gains as a matrix -/
lemma Ready.frame {w : MWorld n Unit} (hw : Ready up m c I js g ws w) : ∃ π : Fin n → Fin n, Function.Bijective π ∧
    ∀ (i : Fin n) (v : Fin n → ℝ), wide v ((pdDofMap (pdRead w js)).getD i 0) = v (π i) := by
  set μ := pdDofMap (pdRead w js) with hμ
  have hlen : μ.length = n := hw.len
  have hget : ∀ i : Fin n, μ.getD i 0 < n := by
    intro i
    have hi : i.val < μ.length := by omega
    rw [List.getD_eq_getElem _ _ hi]
    exact hw.inside _ (List.getElem_mem hi)
  refine ⟨fun i => ⟨μ.getD i 0, hget i⟩, Finite.injective_iff_bijective.mp ?_, ?_⟩
  · intro i j hij
    have h1 : μ.getD i 0 = μ.getD j 0 := congrArg Fin.val hij
    have hi : i.val < μ.length := by omega
    have hj : j.val < μ.length := by omega
    rw [List.getD_eq_getElem _ _ hi, List.getD_eq_getElem _ _ hj] at h1
    exact Fin.ext ((List.Nodup.getElem_inj_iff hw.nodup).mp h1)
  · intro i v
    unfold wide
    rw [dif_pos (hget i)]

lemma sum_fin (f : ℕ → ℕ → ℝ) : ∑ i ∈ Finset.range n, ∑ j ∈ Finset.range n, f i j = ∑ i : Fin n, ∑ j : Fin n, f i j := by
  rw [Finset.sum_range]
  refine Finset.sum_congr rfl fun i _ => ?_
  rw [Finset.sum_range]

lemma strict_pd (hg : GoodGains n g) (hst : StrictGains n g) : SymPD (Matrix.of fun i j : Fin n => g.kp i j) := by
  refine ⟨?_, ?_⟩
  · ext i j
    simp only [Matrix.transpose_apply, Matrix.of_apply]
    exact hg.symm _ j.2 _ i.2
  · intro x hx
    have h1 : ∃ i < n, wide x i ≠ 0 := by
      by_contra hc
      push Not at hc
      apply hx
      rw [← wide_val x]
      funext i
      exact hc i i.2
    have := hst (wide x) h1
    rw [sum_fin] at this
    simp only [dotProduct, Matrix.mulVec, Matrix.of_apply, Finset.mul_sum]
    refine this.trans_eq (Finset.sum_congr rfl fun i _ => Finset.sum_congr rfl fun j _ => ?_)
    rw [congrFun (wide_val x) i, congrFun (wide_val x) j]
    ring

/-- the impedance is not singular -/
lemma Ready.impedance {w : MWorld n Unit} (hw : Ready up m c I js g ws w) (hws : ∀ x ∈ ws, ∃ γ, x = .weight γ) (hst : StrictGains n g) {a : MWorld n Unit}
    (ha : a.tree = w.tree) {dt : ℝ} (hdt : 0 < dt) {vals : List (CtrlVal n)} (hask : askAll up a dt (.pd js g :: ws) = .ok vals) :
    (dt⁻¹ • worldMass (worldDynamic n (linksOf w)) + worldViscosity (worldDynamic n (linksOf w)) + 0 - (vals.map (·.impedance)).sum).det ≠ 0 := by
  intro hdet
  obtain ⟨x, hx, h0⟩ := Matrix.exists_mulVec_eq_zero_iff.mpr hdet
  have hM := (C27_psd (worldDynamic n (linksOf w)) fun x hx => (hw.sound.bodies _ (mem_dyn hx)).2.2.1).2 x
  have hB := (C27_viscosity (worldDynamic n (linksOf w)) fun x hx => (hw.sound.bodies _ (mem_dyn hx)).2.2.2).2 x
  have hv := askAll_inv hask
  cases hv with
  | @cons _ val _ vs h1 h2 =>
  have hz : (vs.map (·.impedance)).sum = 0 := (same_weights (fun _ => rfl) hws h2 h2).2
  have e1 : pdUpdate n g (pdRead w js) dt = .ok val := by
    have h3 : pdUpdate n g (pdRead a js) dt = .ok val := h1
    have e : pdRead a js = pdRead w js := by unfold pdRead; rw [ha]
    rwa [e] at h3
  have d1 := pd_dot e1 hw.nodup x x
  have d2 := pd_dot e1 hw.nodup 0 x
  rw [Matrix.mulVec_zero, add_zero] at d2
  have hw0 : ∀ i, wide (0 : Fin n → ℝ) i = 0 := by
    intro i
    unfold wide
    split <;> rfl
  have d3 : x ⬝ᵥ val.impedance *ᵥ x = -(dt * ∑ i ∈ Finset.range n, ∑ j ∈ Finset.range n, wide x ((pdDofMap (pdRead w js)).getD i 0) * g.kp i j * wide x ((pdDofMap (pdRead w js)).getD j 0)) -
      ∑ i ∈ Finset.range n, ∑ j ∈ Finset.range n, wide x ((pdDofMap (pdRead w js)).getD i 0) * g.kd i j * wide x ((pdDofMap (pdRead w js)).getD j 0) := by
    have e3 : x ⬝ᵥ val.impedance *ᵥ x = x ⬝ᵥ (val.gforce + val.impedance *ᵥ x) - x ⬝ᵥ val.gforce := by
      rw [dotProduct_add]
      ring
    rw [e3, d1, d2, hw.len, ← Finset.sum_sub_distrib, Finset.mul_sum, ← Finset.sum_neg_distrib, ← Finset.sum_sub_distrib]
    refine Finset.sum_congr rfl fun i _ => ?_
    rw [← sub_mul, ← Finset.sum_sub_distrib, Finset.sum_mul, Finset.mul_sum, ← Finset.sum_neg_distrib, ← Finset.sum_sub_distrib]
    refine Finset.sum_congr rfl fun j _ => ?_
    rw [hw0]
    ring
  obtain ⟨π, hπ, hwide⟩ := hw.frame
  have hpos := hst (fun i => wide x ((pdDofMap (pdRead w js)).getD i 0)) (by
    by_contra hc
    push Not at hc
    apply hx
    funext d
    obtain ⟨i, rfl⟩ := hπ.2 d
    rw [← hwide i x]
    exact hc i i.2)
  have hkd := hw.gains.kd (fun i => wide x ((pdDofMap (pdRead w js)).getD i 0))
  have e4 := congrArg (x ⬝ᵥ ·) h0
  simp only [List.map_cons, List.sum_cons, hz, add_zero, Matrix.sub_mulVec, Matrix.add_mulVec, Matrix.smul_mulVec, dotProduct_sub, dotProduct_add, dotProduct_smul,
    smul_eq_mul, dotProduct_zero, d3] at e4
  have := mul_nonneg (inv_pos.mpr hdt).le hM
  have := mul_pos hdt hpos
  linarith

/-! ### simulations go to the end -/

lemma ready_started {w w0 : MWorld n Unit} (hw : SlidingWorld m c w) (hg : GoodCtrl w (.pd js g)) (hws : ∀ x ∈ ws, ∃ γ, x = .weight γ) (hd : Driven js w)
    (h : Started w w0) : ∃ I, Ready up m c I js g ws w0 := by
  obtain ⟨I, hs⟩ := sound_started (up := up) (cs := .pd js g :: ws) hw (by
    intro x hx
    rcases List.mem_cons.mp hx with rfl | hx
    · exact hg
    · obtain ⟨γ, rfl⟩ := hws x hx
      trivial) h
  exact ⟨I, hs, h.vel, driven_started hd h⟩

/-- the world, bodies and matrices up to date -/
structure Fresh (w : MWorld n Unit) : Prop where
  dyn : w.dyn = worldDynamic n (linksOf w)
  mass : w.mass = worldMass w.dyn
  viscosity : w.viscosity = worldViscosity w.dyn
  nleffects : w.nleffects = 0

/-- C118.  Such a controller drives, with strictly positive gains, all the dofs of a world whose joints only slide, without constraints; there may be
weight controllers.  The simulation never raises, on any strictly increasing timeline: no matrix it inverts is singular. -/
theorem C118_runs {w : MWorld n Unit} (hw : SlidingWorld m c w) (hg : GoodCtrl w (.pd js g)) (hws : ∀ x ∈ ws, ∃ γ, x = .weight γ) (hd : Driven js w)
    (hst : StrictGains n g) {tl : List ℝ} (htl : tl ≠ []) (hp : tl.Pairwise (· < ·)) (k : ℕ) :
    ∃ tr w' t', simulate (engine (libPlug n up (.pd js g :: ws))) w tl (.list k) = (tr, .ok (w', t')) := by
  cases tl with
  | nil => exact absurd rfl htl
  | cons t0 rest =>
    obtain ⟨w0, h0, hst0⟩ := init_started (w := w) hw.dofs
    obtain ⟨I, hr0⟩ := ready_started (up := up) (ws := ws) hw hg hws hd hst0
    have key : ∀ tr' e tr (w : MWorld n Unit), Ready up m c I js g ws w → loop (engine (libPlug n up (.pd js g :: ws))) k rest tr w t0 ≠ (tr', .error e) := by
      intro tr' e tr w hw hl
      refine (loop_error (E := engine (libPlug n up (.pd js g :: ws))) (I := Ready up m c I js g ws)
        (J := fun w => Ready up m c I js g ws w ∧ Fresh w) (Q := fun e => False)
        ?_ ?_ ?_ ?_ k rest tr tr' w t0 e hp hw hl).1
      · intro w hw
        have hval : ∀ l ∈ (w.tree.map MLink.link id).links, ValidLink l := by
          intro l hl
          rw [links_map] at hl
          obtain ⟨l0, hl0, rfl⟩ := List.mem_map.mp hl
          exact (hw.sound.links l0 hl0).2.valid
        have h1 := (C20_no_assertion n _ hval).2
        simp only [engine, dynamic, h1]
        exact ⟨_, rfl, ⟨⟨hw.sound.links, hw.sound.num, hw.sound.bodies, hw.sound.cons, hw.sound.ctrl⟩, hw.vel, ⟨hw.driven.dofs, hw.driven.all, hw.driven.same⟩⟩,
          rfl, rfl, rfl, nl_slid hw.still⟩
      · rintro w dt hdt ⟨hw, hf⟩
        left
        obtain ⟨vals, hask⟩ := hw.ask hws (a := w) rfl hf.dyn dt
        have : ∃ o, updateControllers w.mass w.viscosity w.nleffects dt vals = .ok o := by
          have hz := hw.impedance hws hst (a := w) rfl hdt hask
          rw [← hf.dyn, ← hf.mass, ← hf.viscosity, ← hf.nleffects] at hz
          exact ⟨⟨_, _, _⟩, (C33_sum _ _ _ _ _ _).mpr ⟨hdt, hz, rfl, rfl, Matrix.nonsing_inv_mul _ (isUnit_iff_ne_zero.mpr hz)⟩⟩
        obtain ⟨o, ho⟩ := this
        simp only [engine, controllers, libPlug, hask, ho]
        exact ⟨_, rfl, ⟨⟨hw.sound.links, hw.sound.num, hw.sound.bodies, hw.sound.cons, hw.sound.ctrl⟩, hw.vel, ⟨hw.driven.dofs, hw.driven.all, hw.driven.same⟩⟩,
          hf.dyn, hf.mass, hf.viscosity, hf.nleffects⟩
      · rintro w dt hdt ⟨hw, hf⟩
        simp only [engine, constraints, updateConstraints, if_pos hdt, hw.sound.cons, List.map_nil, writeBack]
        exact ⟨_, rfl, ⟨⟨hw.sound.links, hw.sound.num, hw.sound.bodies, rfl, hw.sound.ctrl⟩, hw.vel, ⟨hw.driven.dofs, hw.driven.all, hw.driven.same⟩⟩,
          hf.dyn, hf.mass, hf.viscosity, hf.nleffects⟩
      · rintro w dt hdt ⟨hw, hf⟩
        simp only [engine, Mech.integrate, integrateGvel, if_pos hdt]
        exact ⟨_, rfl, hw.after rfl hw.sound.cons rfl⟩
    have h0' : (engine (libPlug n up (.pd js g :: ws))).init w = .ok w0 := h0
    simp only [simulate, h0', call]
    split
    · rename_i hl
      exact absurd hl (key _ _ _ _ hr0)
    · rename_i r _
      exact ⟨_, r.1, r.2, rfl⟩

/-! ### the rest position -/

/-- there is a position where the forces cancel -/
lemma Ready.rest {w : MWorld n Unit} (hw : Ready up m c I js g ws w) (hws : ∀ x ∈ ws, ∃ γ, x = .weight γ) (hst : StrictGains n g) :
    ∃ r, RestOf up (.pd js g :: ws) w r := by
  obtain ⟨π, hπ, hwide⟩ := hw.frame
  have hPD := strict_pd hw.gains hst
  set Kp : Matrix (Fin n) (Fin n) ℝ := Matrix.of fun i j : Fin n => g.kp i j with hKp
  obtain ⟨vals, hask⟩ := hw.ask hws (a := { w with dyn := worldDynamic n (linksOf w) }) rfl rfl 1
  set F := (vals.map (·.gforce)).sum with hF
  set y := Kp⁻¹ *ᵥ (F ∘ π) with hy
  have hKy : Kp *ᵥ y = F ∘ π := by
    rw [hy, Matrix.mulVec_mulVec, Matrix.mul_nonsing_inv _ (isUnit_iff_ne_zero.mpr (BlockGS.pd_det hPD)), Matrix.one_mulVec]
  set σ := Equiv.ofBijective π hπ with hσ
  set u : Fin n → ℝ := fun d => y (σ.symm d) with hu
  have huπ : ∀ i, u (π i) = y i := by
    intro i
    have : σ.symm (π i) = i := σ.symm_apply_apply i
    simp only [hu, this]
  let r0 : MWorld n Unit := { w with tree := w.tree.map (advance u 1) id, gvel := u }
  let r : MWorld n Unit := { r0 with dyn := worldDynamic n (linksOf r0) }
  have hmv : ForestRel (Moved 1 u) w.tree r.tree := advance_rel hw.vel u 1
  have hr : Ready up m c I js g ws r := hw.after (w' := r) rfl hw.sound.cons rfl
  obtain ⟨vals', hask'⟩ := hr.ask hws (a := r) rfl rfl 1
  have hl := like_moved hw.sound hmv
  refine ⟨r, ⟨u, hmv⟩, rfl, 1, vals', hask', ?_⟩
  have hv := askAll_inv hask
  have hv' := askAll_inv hask'
  cases hv with
  | @cons _ val _ vs h1 h2 =>
  cases hv' with
  | @cons _ val' _ vs' h1' h2' =>
  obtain ⟨rfl, -⟩ := same_weights (fun γ => (hl.weight γ).symm) hws h2 h2'
  have e1 : pdUpdate n g (pdRead w js) 1 = .ok val := h1
  have e2 : pdUpdate n g (pdRead r js) 1 = .ok val' := h1'
  obtain ⟨-, m2, m3⟩ := moved_lists (read_moved hmv.links.1 js)
  have hq : ((pdRead w js).flatMap PDJoint.gpos).length = n := by
    rw [← gposOf_read]
    exact hw.driven.all
  rw [hq] at m3
  funext d
  obtain ⟨i, rfl⟩ := hπ.2 d
  have d1 := pd_dot e1 hw.nodup 0 (Pi.single (π i) 1)
  have d2 := pd_dot e2 hr.nodup 0 (Pi.single (π i) 1)
  rw [Matrix.mulVec_zero, add_zero, single_one_dotProduct] at d1 d2
  rw [hr.len, hl.map js] at d2
  rw [hw.len] at d1
  have hz : ∀ i, wide (0 : Fin n → ℝ) i = 0 := by
    intro i
    unfold wide
    split <;> rfl
  have hsel : ∀ f : ℕ → ℝ, ∑ j ∈ Finset.range n, f j * wide (Pi.single (π i) (1 : ℝ)) ((pdDofMap (pdRead w js)).getD j 0) = f i := by
    intro f
    rw [Finset.sum_range, Finset.sum_eq_single i]
    · rw [hwide, Pi.single_eq_same, mul_one]
    · intro j _ hne
      rw [hwide, Pi.single_eq_of_ne (fun h => hne (hπ.1 h)), mul_zero]
    · intro h
      exact absurd (Finset.mem_univ _) h
  rw [hsel] at d1 d2
  have hstep : val'.gforce (π i) = val.gforce (π i) - (Kp *ᵥ y) i := by
    rw [d1, d2]
    simp only [Matrix.mulVec, dotProduct, hKp, Matrix.of_apply]
    rw [Finset.sum_range, Finset.sum_range, ← Finset.sum_sub_distrib]
    refine Finset.sum_congr rfl fun j _ => ?_
    rw [m3 j j.2, hwide, huπ, hz]
    ring
  rw [List.map_cons, List.sum_cons, Pi.add_apply, hstep, hKy]
  simp only [Function.comp, hF, List.map_cons, List.sum_cons, Pi.add_apply, Pi.zero_apply]
  ring

lemma evolves_contracts {w0 r : MWorld n Unit} (hl0 : Like up w0 r) {ρ h : ℝ} (hρ : 0 ≤ ρ)
    (key : ∀ (dt : ℝ) (w s w' : MWorld n Unit), Sound up m c I (.pd js g :: ws) w → Like up w0 w → WStep (libPlug n up (.pd js g :: ws)) dt w s w' →
      h ≤ dt → unrest js g r w' ≤ ρ * unrest js g r w)
    {tl : List ℝ} {w w' : MWorld n Unit} {seen : List (ℝ × ℝ × MWorld n Unit)} (hev : Evolves (libPlug n up (.pd js g :: ws)) tl w seen w')
    (hw : Sound up m c I (.pd js g :: ws) w) (hl : Like up w0 w) (hs : StepsAtLeast h tl) :
    unrest js g r w' ≤ ρ ^ (tl.length - 1) * unrest js g r w ∧ Sound up m c I (.pd js g :: ws) w' ∧ Like up w0 w' := by
  induction hev with
  | done t w => exact ⟨by simp, hw, hl⟩
  | @step t t' ts w s w' w'' seen hstep hrest ih =>
    obtain ⟨i1, i2⟩ := ih (step_facts hw hstep).1 (hl.trans (like_moved hw hstep.tree)) hs.2
    refine ⟨i1.trans ?_, i2⟩
    have := key _ _ _ _ hw hl hstep hs.1
    simp only [List.length_cons, Nat.add_sub_cancel]
    rw [pow_succ, mul_assoc]
    exact mul_le_mul_of_nonneg_left this (pow_nonneg hρ _)

/-- C118.  The same world and controllers.  There is a position of the joints where the forces of the controllers cancel; and whatever the (positive)
length `h`, there is a factor `ρ < 1` such that every step of length at least `h` — of any simulation, of any length — reduces the energy, counted
from that position, by that factor. -/
theorem C118_contracts {w : MWorld n Unit} (hw : SlidingWorld m c w) (hg : GoodCtrl w (.pd js g)) (hws : ∀ x ∈ ws, ∃ γ, x = .weight γ) (hd : Driven js w)
    (hst : StrictGains n g) :
    ∃ w0 r, Mech.init w = .ok w0 ∧ RestOf up (.pd js g :: ws) w0 r ∧ ∀ h > 0, ∃ ρ, 0 ≤ ρ ∧ ρ < 1 ∧
      ∀ (tl : List ℝ) (k : ℕ) (tr : List (Ev (MWorld n Unit))) (w' : MWorld n Unit) (t' : ℝ), StepsAtLeast h tl →
        simulate (engine (libPlug n up (.pd js g :: ws))) w tl (.list k) = (tr, .ok (w', t')) →
        unrest js g r w' ≤ ρ ^ (tl.length - 1) * unrest js g r w0 := by
  obtain ⟨w0, h0, hst0⟩ := init_started (w := w) hw.dofs
  obtain ⟨I, hr0⟩ := ready_started (up := up) (ws := ws) hw hg hws hd hst0
  obtain ⟨r, hr⟩ := hr0.rest hws hst
  have hlr := like_moved hr0.sound hr.moved.choose_spec
  refine ⟨w0, r, h0, hr, fun h hh => ?_⟩
  obtain ⟨ρ, hρ0, hρ1, key⟩ := contraction_step hr0.sound hws hr hr0.driven.all hst hh
  refine ⟨ρ, hρ0, hρ1, ?_⟩
  intro tl k tr w' t' hs hrun
  obtain ⟨t0, w0', seen, h1, h2, h3, -⟩ := run_evolves hw.dofs hrun
  obtain rfl : w0' = w0 := Except.ok.inj (h1.symm.trans h0)
  exact (evolves_contracts hlr hρ0 key h3 hr0.sound ⟨rfl, rfl, fun _ => rfl, fun _ => rfl, fun _ => rfl⟩ hs).1

lemma steps_lt {h : ℝ} (hh : 0 < h) : ∀ {tl : List ℝ}, StepsAtLeast h tl → tl.Pairwise (· < ·)
  | [], _ => .nil
  | [t], _ => by simp
  | t :: t' :: ts, hs => by
    have ih := steps_lt hh hs.2
    have h1 : t < t' := by have := hs.1; linarith
    refine List.pairwise_cons.mpr ⟨?_, ih⟩
    intro x hx
    rcases List.mem_cons.mp hx with rfl | hx
    · exact h1
    · exact h1.trans ((List.pairwise_cons.mp ih).1 x hx)

/-- C118.  The same world and controllers: it comes to rest.  There is a position of the joints where the forces of the controllers cancel, such that
for every precision `ε` and every least step `h` there is a number of steps after which every simulation (whose steps are not shorter than `h`; it never
raises) has its joints within `ε` of that position, and a kinetic energy less than `ε`. -/
theorem C118_settles {w : MWorld n Unit} (hw : SlidingWorld m c w) (hg : GoodCtrl w (.pd js g)) (hws : ∀ x ∈ ws, ∃ γ, x = .weight γ) (hd : Driven js w)
    (hst : StrictGains n g) :
    ∃ w0 r, Mech.init w = .ok w0 ∧ RestOf up (.pd js g :: ws) w0 r ∧ ∀ h > 0, ∀ ε > 0, ∃ N, ∀ (tl : List ℝ) (k : ℕ), N < tl.length → StepsAtLeast h tl →
      ∃ tr w' t', simulate (engine (libPlug n up (.pd js g :: ws))) w tl (.list k) = (tr, .ok (w', t')) ∧
        (gposOf w' js).length = (gposOf r js).length ∧ (∀ i, |(gposOf w' js).getD i 0 - (gposOf r js).getD i 0| < ε) ∧
        (1 / 2) * (w'.gvel ⬝ᵥ worldMass (worldDynamic n (linksOf w')) *ᵥ w'.gvel) < ε := by
  obtain ⟨w0, h0, hst0⟩ := init_started (w := w) hw.dofs
  obtain ⟨I, hr0⟩ := ready_started (up := up) (ws := ws) hw hg hws hd hst0
  obtain ⟨r, hr⟩ := hr0.rest hws hst
  have hlr := like_moved hr0.sound hr.moved.choose_spec
  refine ⟨w0, r, h0, hr, fun h hh ε hε => ?_⟩
  obtain ⟨ρ, hρ0, hρ1, key⟩ := contraction_step hr0.sound hws hr hr0.driven.all hst hh
  have hPD := strict_pd hr0.gains hst
  obtain ⟨b, K, hb, -, hbound, -⟩ := pd_bounds hPD
  set U := unrest js g r w0 with hU
  have hlim : Filter.Tendsto (fun N : ℕ => ρ ^ N * U) Filter.atTop (nhds 0) := by
    have := (tendsto_pow_atTop_nhds_zero_of_lt_one hρ0 hρ1).mul_const U
    rwa [zero_mul] at this
  have hδ : 0 < min ε ((1 / 2) * (b * ε ^ 2)) := by positivity
  obtain ⟨N, hN⟩ := Filter.eventually_atTop.mp (hlim.eventually (gt_mem_nhds hδ))
  refine ⟨N, fun tl k htl hs => ?_⟩
  have hne : tl ≠ [] := by
    rintro rfl
    simp at htl
  obtain ⟨tr, w', t', hrun⟩ := C118_runs (up := up) hw hg hws hd hst hne (steps_lt hh hs) k
  refine ⟨tr, w', t', hrun, ?_⟩
  obtain ⟨t0, w0', seen, h1, h2, h3, -⟩ := run_evolves hw.dofs hrun
  obtain rfl : w0' = w0 := Except.ok.inj (h1.symm.trans h0)
  obtain ⟨c1, c2, c3⟩ := evolves_contracts hlr hρ0 key h3 hr0.sound ⟨rfl, rfl, fun _ => rfl, fun _ => rfl, fun _ => rfl⟩ hs
  have hsmall := c1.trans_lt (hN (tl.length - 1) (by omega))
  have hlen' : (gposOf w' js).length = n := (c3.len js).trans hr0.driven.all
  have hlenr : (gposOf r js).length = n := (hlr.len js).trans hr0.driven.all
  have hkin := (C27_psd (worldDynamic n (linksOf w')) fun x hx => (c2.bodies _ (mem_dyn hx)).2.2.1).2 w'.gvel
  set e : Fin n → ℝ := fun i => (gposOf w' js).getD i 0 - (gposOf r js).getD i 0 with he
  have hspr : springs { g with gposDes := fun i => (gposOf r js).getD i 0 } (gposOf w' js) = (1 / 2) * (e ⬝ᵥ (Matrix.of fun i j : Fin n => g.kp i j) *ᵥ e) := by
    unfold springs
    rw [hlen', sum_fin]
    congr 1
    simp only [dotProduct, Matrix.mulVec, Matrix.of_apply, Finset.mul_sum, he]
    exact Finset.sum_congr rfl fun i _ => Finset.sum_congr rfl fun j _ => by ring
  have hbe := hbound e
  have hexp : unrest js g r w' = (1 / 2) * (w'.gvel ⬝ᵥ worldMass (worldDynamic n (linksOf w')) *ᵥ w'.gvel) + (1 / 2) * (e ⬝ᵥ (Matrix.of fun i j : Fin n => g.kp i j) *ᵥ e) := by
    rw [← hspr]
    rfl
  rw [hexp] at hsmall
  have h4 := hsmall.trans_le (min_le_left _ _)
  have h5 := hsmall.trans_le (min_le_right _ _)
  have hbn : 0 ≤ b * ‖e‖ ^ 2 := by positivity
  refine ⟨hlen'.trans hlenr.symm, ?_, by linarith⟩
  have hnorm : ‖e‖ < ε := by
    have : b * ‖e‖ ^ 2 < b * ε ^ 2 := by linarith
    have := lt_of_mul_lt_mul_left this hb.le
    exact lt_of_pow_lt_pow_left₀ 2 hε.le this
  intro i
  by_cases hi : i < n
  · exact (norm_le_pi_norm e ⟨i, hi⟩).trans_lt hnorm
  · rw [List.getD_eq_default _ _ (by omega), List.getD_eq_default _ _ (by omega), sub_zero, abs_zero]
    exact hε

end

/-! ### a world that meets the hypotheses -/

/-- a body that slides on a body that slides on the ground, horizontally and vertically, moving -/
def crane : MWorld 2 Unit :=
  ⟨.cons ⟨.lin .Tx (fun _ => 1) (fun _ => 2), 0, 1, 1⟩ ⟨1, 0⟩ (.cons ⟨.lin .Tz (fun _ => -3) (fun _ => 5), 0, 1, 1⟩ ⟨1, 0⟩ .nil .nil) .nil, 0, [], 0, 0, 0, ⟨0, 0, 0⟩, [], ()⟩

/-- springs, no damping -/
def craneGains : PDGains := ⟨fun i j => if i = j then 100 else 0, fun _ _ => 0, fun _ => 7, fun _ => 0⟩

/-- C118 (its hypotheses can be met): a crane held by springs, without any damping, under weight, comes to rest. -/
theorem C118_example (up : Vec3) : ∃ m c, SlidingWorld m c crane ∧ GoodCtrl crane (.pd [0, 1] craneGains) ∧ Driven [0, 1] crane ∧ StrictGains 2 craneGains ∧
    ∃ w0 r, Mech.init crane = .ok w0 ∧ RestOf up [.pd [0, 1] craneGains, .weight (-9.81)] w0 r ∧ ∀ h > 0, ∀ ε > 0, ∃ N, ∀ (tl : List ℝ) (k : ℕ), N < tl.length →
      StepsAtLeast h tl → ∃ tr w' t', simulate (engine (libPlug 2 up [.pd [0, 1] craneGains, .weight (-9.81)])) crane tl (.list k) = (tr, .ok (w', t')) ∧
        ∀ i, |(gposOf w' [0, 1]).getD i 0 - (gposOf r [0, 1]).getD i 0| < ε := by
  have hpos : gposOf crane [0, 1] = [1, -3] := by
    simp [gposOf, crane, Forest.links, LinKind.ndof]
  have h1 : SlidingWorld (fun _ => 1) (fun _ => 0) crane := by
    refine ⟨by simp [ndof, crane, Forest.links, JAttr.ndof, LinKind.ndof], ?_, ?_, rfl⟩
    · intro l hl
      simp only [crane, Forest.links, List.append_nil, List.mem_cons, List.not_mem_nil, or_false] at hl
      rcases hl with rfl | rfl
      · exact ⟨by simp [Sliding], isRigid_one, isRigid_one, fun H T h => by cases h⟩
      · exact ⟨by simp [Sliding], isRigid_one, isRigid_one, fun H T h => by cases h⟩
    · intro b hb
      simp only [crane, Forest.bodies, List.append_nil, List.mem_cons, List.not_mem_nil, or_false] at hb
      have hb : b = ⟨1, 0⟩ := by rcases hb with rfl | rfl <;> rfl
      subst hb
      refine ⟨?_, zero_le_one, ?_, ?_⟩
      · exact ⟨1, Matrix.transpose_one, by simp [skew_zero, blk_one]⟩
      · exact ⟨Matrix.transpose_one, fun x => by rw [Matrix.one_mulVec]; exact Finset.sum_nonneg fun i _ => mul_self_nonneg _⟩
      · exact ⟨Matrix.transpose_zero, fun x => by simp⟩
  have h2 : GoodGains 2 craneGains := by
    refine ⟨?_, ?_, ?_, fun _ _ => rfl⟩
    · intro i _ j _
      simp only [craneGains, eq_comm]
    · intro x
      simp [craneGains, Finset.sum_range_succ]
      nlinarith [sq_nonneg (x 0), sq_nonneg (x 1)]
    · intro x
      simp [craneGains]
  have h3 : StrictGains 2 craneGains := by
    rintro x ⟨i, hi, hx⟩
    have := sq_pos_of_ne_zero hx
    simp [craneGains, Finset.sum_range_succ]
    interval_cases i <;> nlinarith [sq_nonneg (x 0), sq_nonneg (x 1)]
  have h4 : GoodCtrl crane (.pd [0, 1] craneGains) := ⟨by simp, by rw [hpos]; exact h2⟩
  have h5 : Driven [0, 1] crane := by
    refine ⟨by norm_num, by rw [hpos]; rfl, 1, ?_⟩
    intro i hi l hl
    simp only [List.mem_cons, List.not_mem_nil, or_false] at hi
    rcases hi with rfl | rfl
    · obtain rfl : _ = l := by simpa [crane, Forest.links] using hl
      rfl
    · obtain rfl : _ = l := by simpa [crane, Forest.links] using hl
      rfl
  refine ⟨_, _, h1, h4, h5, h3, ?_⟩
  obtain ⟨w0, r, e1, e2, e3⟩ := C118_settles (up := up) (ws := [.weight (-9.81)]) h1 h4 (fun x hx => ⟨_, by simpa using hx⟩) h5 h3
  refine ⟨w0, r, e1, e2, fun h hh ε hε => ?_⟩
  obtain ⟨N, hN⟩ := e3 h hh ε hε
  refine ⟨N, fun tl k h6 h7 => ?_⟩
  obtain ⟨tr, w', t', r1, -, r2, -⟩ := hN tl k h6 h7
  exact ⟨tr, w', t', r1, r2⟩

end Arboris
