import Verif.Proofs.Image
import Mathlib.Data.List.GetD

/-!
# C105, C106: mirror images; the unit of length
-/

namespace Arboris
open Matrix Spec Mech Build Sim

noncomputable section

variable {f : ℝ} {s : Vec3}

/-! ### the tree -/

/-- a joint and its image -/
structure ImageJoint {k : ℕ} (f : ℝ) (s : Vec3) (e : Fin k → ℝ) (j j' : JointVal k) : Prop where
  pose : j'.pose = imagePose f s j.pose
  ipose : j'.ipose = imagePose f s j.ipose
  twist : j'.twist = twistF f s * j.twist
  jac : j'.jac = resize (twistF f s) e⁻¹ j.jac
  djac : j'.djac = resize (twistF f s) e⁻¹ j.djac

lemma dynStepE_image {n k : ℕ} (hf : 0 < f) (hs : IsSigns s) {e : Fin k → ℝ} {j j' : JointVal k} (h : ImageJoint f s e j j') (D : Fin n → ℝ)
    (hD : ∀ i, D i ≠ 0) (x : BodyDyn n) (st : ℕ) (b0 b1 : Mat4) (hst : ∀ (i : Fin k) (hi : st + i.val < n), D ⟨st + i.val, hi⟩ = e i) :
    dynStepE (imageDyn f s D x) ⟨k, st, j', imagePose f s b0, imagePose f s b1⟩ = (dynStepE x ⟨k, st, j, b0, b1⟩).map (imageDyn f s D) := by
  classical
  have hl := inv_left (twistF_ne hf hs)
  rw [dynStepE_iff, dynStepE_iff]
  have e : linkOk ⟨k, st, j', imagePose f s b0, imagePose f s b1⟩ ↔ linkOk ⟨k, st, j, b0, b1⟩ := by
    simp only [linkOk, h.pose, h.ipose, invBody_image hf hs, ← imagePose_mul hf hs, hom_image hf hs]
  simp only [e]
  split
  · rw [except_map_ok]
    have e1 : -(twistF f s * (adjointBody j.ipose *ᵥ j.twist)) = twistF f s * -(adjointBody j.ipose *ᵥ j.twist) := by
      rw [mul_neg]
    simp only [dynStep, imageDyn, h.pose, h.twist, h.jac, h.djac, JointVal.idadjoint, JointVal.itwist, JointVal.iadjoint, h.ipose,
      iadjointBody, invBody_image hf hs, ← imagePose_mul hf hs, adjointBody_image hf hs, resize_mulVec hl, resize_mul hl,
      e1, adjacency_image hf hs, ← resize_add, addCols_image _ D _ _ _ _ hst, ← mul_add]
  · rfl

/-- `dof.start` of the joint points at the factors of its dofs -/
def Fit {n : ℕ} (f : ℝ) (s : Vec3) (D : Fin n → ℝ) (l : MLink) : Prop :=
  ∀ i, i < l.att.ndof → ∀ hi : l.start + i < n, D ⟨l.start + i, hi⟩ = dofF f s l.att i

lemma imageLink_step {n : ℕ} (hf : 0 < f) (hs : IsSigns s) (D : Fin n → ℝ) (hD : ∀ i, D i ≠ 0) (x : BodyDyn n) (l : MLink) (hl : Fit f s D l) :
    dynStepE (imageDyn f s D x) (imageLink f s l).link = (dynStepE x l.link).map (imageDyn f s D) := by
  obtain ⟨att, st, b0, b1⟩ := l
  cases att with
  | lin k q dq =>
    refine dynStepE_image (e := linF f s k) (j := k.val q dq) (j' := k.val (linF f s k * q) (linF f s k * dq)) hf hs
      ⟨linPose_image hf hs k q, linIpose_image hf hs k q, ?_, linJac_image hf hs k q, linDjac_image hs k q dq⟩ D hD x st b0 b1
      fun i hi => hl i.val i.isLt hi
    have hne : ∀ i, linF f s k i ≠ 0 := fun i => twistF_ne hf hs _
    simp only [LinKind.val, linJac_image hf hs, resize_mulVec (inv_left hne)]
  | free H T =>
    have ht := twistF_ne hf hs
    refine dynStepE_image (e := twistF f s) (j := freeVal H T) (j' := freeVal (imagePose f s H) (twistF f s * T)) hf hs
      ⟨rfl, invBody_image hf hs H, rfl, (resize_one (inv_right ht)).symm, (resize_zero _ _).symm⟩ D hD x st b0 b1
      fun i hi => (hl i.val i.isLt hi).trans ?_
    fin_cases i <;> rfl
  | fixed =>
    refine dynStepE_image (e := fun _ => 1) (j := fixedVal) (j' := fixedVal) hf hs
      ⟨(imagePose_one hf hs).symm, ?_, by simp [fixedVal], (resize_zero _ _).symm, (resize_zero _ _).symm⟩ D hD x st b0 b1
      fun i hi => i.elim0
    simp only [fixedVal, ← invBody_image hf hs, imagePose_one hf hs]

lemma updateDynamicE_image {n : ℕ} (hf : 0 < f) (hs : IsSigns s) (D : Fin n → ℝ) (hD : ∀ i, D i ≠ 0) (F : Forest MLink Body) (x : BodyDyn n)
    (hF : ∀ l ∈ F.links, Fit f s D l) :
    updateDynamicE (imageDyn f s D x) ((F.map (imageLink f s) (imageBody f s)).map MLink.link id) =
      (updateDynamicE x (F.map MLink.link id)).map fun d => d.map fun x => (imageBody f s x.1, imageDyn f s D x.2) := by
  induction F generalizing x with
  | nil => rfl
  | cons l b ch sib ih1 ih2 =>
    simp only [Forest.links, List.cons_append, List.mem_cons, List.mem_append] at hF
    simp only [Forest.map]
    unfold updateDynamicE
    rw [imageLink_step hf hs D hD x l (hF l (Or.inl rfl))]
    cases dynStepE x l.link with
    | error e => rfl
    | ok a1 =>
    simp only [except_map_ok, bind, Except.bind]
    rw [ih1 a1 fun l' h => hF l' (Or.inr (Or.inl h)), ih2 x fun l' h => hF l' (Or.inr (Or.inr h))]
    cases updateDynamicE a1 (ch.map MLink.link id) with
    | error e => rfl
    | ok a2 =>
    simp only [except_map_ok]
    cases updateDynamicE x (sib.map MLink.link id) with
    | error e => rfl
    | ok a3 =>
    simp only [except_map_ok, pure, Except.pure, List.map_cons, List.map_append, id]

lemma world_image {n : ℕ} (hf : 0 < f) (hs : IsSigns s) (D : Fin n → ℝ) (d : List (Body × BodyDyn n)) :
    worldMass (d.map fun x => (imageBody f s x.1, imageDyn f s D x.2)) = f ^ 2 • resize D⁻¹ D⁻¹ (worldMass d) ∧
    worldViscosity (d.map fun x => (imageBody f s x.1, imageDyn f s D x.2)) = f ^ 2 • resize D⁻¹ D⁻¹ (worldViscosity d) ∧
    worldNleffects (d.map fun x => (imageBody f s x.1, imageDyn f s D x.2)) = f ^ 2 • resize D⁻¹ D⁻¹ (worldNleffects d) := by
  have hl := inv_left (twistF_ne hf hs)
  have hr := inv_right (twistF_ne hf hs)
  simp only [worldMass_eq, worldViscosity_eq, worldNleffects_eq, List.map_map]
  refine ⟨?_, ?_, ?_⟩ <;>
  · rw [resize_sum, List.smul_sum, List.map_map, List.map_map]
    congr 1
    apply List.map_congr_left
    intro x _
    simp only [Function.comp, imageBody, imageDyn, bodyNleffects_image hf hs, resize_transpose, Matrix.mul_smul, Matrix.smul_mul, resize_mul hr,
      resize_mul hl, ← smul_add, ← resize_add]

/-! ### the dofs -/

lemma jointAxes_length (j : JAttr) : (jointAxes j).length = j.ndof := by
  cases j with
  | lin k q dq => cases k <;> rfl
  | free H T => rfl
  | fixed => rfl

lemma jointAxes_image (j : JAttr) : jointAxes (imageJoint f s j) = jointAxes j := by cases j <;> rfl
lemma dofF_image (j : JAttr) (i : ℕ) : dofF f s (imageJoint f s j) i = dofF f s j i := by rw [dofF, dofF, jointAxes_image]
lemma imageJoint_ndof (j : JAttr) : (imageJoint f s j).ndof = j.ndof := by cases j <;> rfl

lemma treeF_get (a : ℕ) (ls : List MLink) (h : Numbered a ls) (l : MLink) (hl : l ∈ ls) (i : ℕ) (hi : i < l.att.ndof) :
    a ≤ l.start ∧ (ls.flatMap fun l => (jointAxes l.att).map (twistF f s)).getD (l.start + i - a) 1 = dofF f s l.att i := by
  induction ls generalizing a with
  | nil => cases hl
  | cons x ls ih =>
    obtain ⟨h1, h2⟩ := h
    rw [List.flatMap_cons]
    rcases List.mem_cons.mp hl with rfl | hl
    · refine ⟨h1.ge, ?_⟩
      rw [h1, Nat.add_sub_cancel_left, List.getD_append _ _ _ _ (by rw [List.length_map, jointAxes_length]; exact hi)]
      rw [dofF, List.getD_eq_getElem _ _ (by rw [List.length_map, jointAxes_length]; exact hi), List.getElem_map,
        List.getD_eq_getElem _ _ (by rw [jointAxes_length]; exact hi)]
    · obtain ⟨h3, h4⟩ := ih (a + x.att.ndof) h2 hl
      refine ⟨by omega, ?_⟩
      rw [List.getD_append_right _ _ _ _ (by rw [List.length_map, jointAxes_length]; omega), List.length_map, jointAxes_length,
        show l.start + i - a - x.att.ndof = l.start + i - (a + x.att.ndof) by omega]
      exact h4

lemma fit_of_numbered {n : ℕ} {F : Forest MLink Body} (h : Numbered 0 F.links) : ∀ l ∈ F.links, Fit f s (gvelF (n := n) f s F) l := by
  intro l hl i hi hn
  have := (treeF_get (f := f) (s := s) 0 F.links h l hl i hi).2
  rw [Nat.sub_zero] at this
  exact this

lemma gvelF_ne {n : ℕ} (hf : 0 < f) (hs : IsSigns s) (F : Forest MLink Body) (i : Fin n) : gvelF f s F i ≠ 0 := by
  simp only [gvelF]
  by_cases h : i.val < (treeF f s F).length
  · rw [List.getD_eq_getElem _ _ h]
    have key : ∀ x ∈ treeF f s F, x ≠ 0 := by
      intro x hx
      simp only [treeF, List.mem_flatMap, List.mem_map] at hx
      obtain ⟨l, _, k, _, hk⟩ := hx
      rw [← hk]
      exact twistF_ne hf hs k
    exact key _ (List.getElem_mem h)
  · rw [List.getD_eq_default _ _ (not_lt.mp h)]
    exact one_ne_zero

/-! ### `update_dynamic` -/

/-- the worlds considered -/
def ImageOk {n : ℕ} {σ : Type} (G : Body → Prop) (w : MWorld n σ) : Prop :=
  w.cons = [] ∧ Numbered 0 w.tree.links ∧ (∀ b ∈ w.tree.bodies, G b) ∧ ∀ x ∈ w.dyn, G x.1

lemma dynamic_image {n : ℕ} {σ : Type} (hf : 0 < f) (hs : IsSigns s) (G : Body → Prop) (w : MWorld n σ) (hw : ImageOk G w) :
    dynamic (image f s w) = (dynamic w).map (image f s) ∧ ∀ a, dynamic w = .ok a → ImageOk G a := by
  unfold dynamic
  have h0 : groundDyn n = imageDyn f s (gvelF f s w.tree) (groundDyn n) := by simp [groundDyn, imageDyn, imagePose_one hf hs, resize_zero]
  have h := updateDynamicE_image hf hs (gvelF f s w.tree) (gvelF_ne hf hs w.tree) w.tree (groundDyn n) (fit_of_numbered hw.2.1)
  rw [← h0] at h
  have hu : (image f s w).tree = w.tree.map (imageLink f s) (imageBody f s) := rfl
  rw [hu, h]
  cases hd : updateDynamicE (groundDyn n) (w.tree.map MLink.link id) with
  | error e => exact ⟨rfl, fun a h => by cases h⟩
  | ok d =>
    obtain ⟨h1, h2, h3⟩ := world_image hf hs (gvelF f s w.tree) d
    simp only [except_map_ok, h1, h2, h3]
    refine ⟨rfl, fun a h => ?_⟩
    rw [← Except.ok.inj h]
    obtain rfl := updateDynamicE_eq hd
    exact ⟨hw.1, hw.2.1, hw.2.2.1, fun x hx => hw.2.2.1 _ (by simpa [bodies_map_link] using mem_bodies_of_dynamic hx)⟩

/-! ### `init` -/

lemma number_image (a : ℕ) (F : Forest MLink Body) :
    number a (F.map (imageLink f s) (imageBody f s)) = ((number a F).1.map (imageLink f s) (imageBody f s), (number a F).2) := by
  induction F generalizing a with
  | nil => rfl
  | cons l b ch sib ih1 ih2 =>
    have e : (imageLink f s l).att.ndof = l.att.ndof := imageJoint_ndof l.att
    simp only [Forest.map, number, e, ih1, ih2]
    rfl

lemma links_image (F : Forest MLink Body) : (F.map (imageLink f s) (imageBody f s)).links = F.links.map (imageLink f s) := by
  induction F with
  | nil => rfl
  | cons l b ch sib ih1 ih2 => simp only [Forest.map, Forest.links, List.map_append, List.map_cons, ih1, ih2, List.cons_append]

lemma treeF_number (a : ℕ) (F : Forest MLink Body) : treeF f s (number a F).1 = treeF f s F := by
  unfold treeF
  induction F generalizing a with
  | nil => rfl
  | cons l b ch sib ih1 ih2 => simp only [number, Forest.links, List.cons_append, List.flatMap_cons, List.flatMap_append, ih1, ih2]

lemma gvelF_number {n : ℕ} (a : ℕ) (F : Forest MLink Body) : (gvelF f s (number a F).1 : Fin n → ℝ) = gvelF f s F := by
  funext i; simp only [gvelF, treeF_number]

lemma vel_image (j : JAttr) (i : ℕ) (hi : i < j.ndof) : (imageJoint f s j).vel i = dofF f s j i * j.vel i := by
  cases j with
  | lin k q dq =>
    have hi' : i < k.ndof := hi
    simp only [imageJoint, JAttr.vel, dif_pos hi']
  | free H T =>
    have hi' : i < 6 := hi
    simp only [imageJoint, JAttr.vel, dif_pos hi']
    have : ∀ j : Fin 6, twistF f s j = dofF f s (.free H T) j.val := by intro j; fin_cases j <;> rfl
    rw [Pi.mul_apply, this]
  | fixed => simp [imageJoint, JAttr.vel]

lemma gather_image {n : ℕ} (D : Fin n → ℝ) (ls : List MLink) (h : ∀ l ∈ ls, Fit f s D l) :
    (gather (ls.map (imageLink f s)) : Fin n → ℝ) = D * gather ls := by
  have key : ∀ acc : Fin n → ℝ, (ls.map (imageLink f s)).foldl
      (fun acc l d => if l.start ≤ d.val ∧ d.val < l.start + l.att.ndof then l.att.vel (d.val - l.start) else acc d) (D * acc) =
      D * ls.foldl (fun acc l d => if l.start ≤ d.val ∧ d.val < l.start + l.att.ndof then l.att.vel (d.val - l.start) else acc d) acc := by
    induction ls with
    | nil => intro acc; rfl
    | cons l ls ih =>
      intro acc
      rw [List.map_cons, List.foldl_cons, List.foldl_cons, ← ih fun l' h' => h l' (List.mem_cons_of_mem _ h')]
      congr 1
      funext d
      simp only [imageLink, imageJoint_ndof, Pi.mul_apply]
      split
      · rename_i hd
        have hlt : l.start + (d.val - l.start) < n := by have := d.isLt; omega
        have h1 := h l List.mem_cons_self (d.val - l.start) (by omega) hlt
        have ed : (⟨l.start + (d.val - l.start), hlt⟩ : Fin n) = d := Fin.ext (by simp; omega)
        rw [ed] at h1
        rw [vel_image _ _ (by omega), h1]
      · rfl
  have := key 0
  rw [mul_zero] at this
  exact this

/-- what is asked of a world before `init` -/
def ImageOk0 {n : ℕ} {σ : Type} (G : Body → Prop) (w : MWorld n σ) : Prop :=
  w.cons = [] ∧ (∀ b ∈ w.tree.bodies, G b) ∧ ∀ x ∈ w.dyn, G x.1

lemma init_image {n : ℕ} {σ : Type} (G : Body → Prop) (w : MWorld n σ) (hw : ImageOk0 G w) :
    Mech.init (image f s w) = (Mech.init w).map (image f s) ∧ ∀ a, Mech.init w = .ok a → ImageOk G a := by
  have hn := (number_spec 0 w.tree).1
  refine ⟨?_, fun a h => ?_⟩
  · have hg := gather_image (n := n) (gvelF f s (number 0 w.tree).1) (number 0 w.tree).1.links (fit_of_numbered (f := f) (s := s) hn)
    rw [gvelF_number] at hg
    simp only [Mech.init, image, number_image, except_map_ok, links_image, gvelF_number, hg, resize_zero, smul_zero, mul_zero]
  · rw [← Except.ok.inj h]
    exact ⟨hw.1, hn, by simpa [bodies_number] using hw.2.1, hw.2.2⟩

/-! ### controllers, integration -/

lemma updateControllers_image {n : ℕ} (hf : 0 < f) (D : Fin n → ℝ) (hD : ∀ i, D i ≠ 0) (mass visc nle : Matrix (Fin n) (Fin n) ℝ) {dt : ℝ}
    (hdt : 0 < dt) (vals : List (CtrlVal n)) :
    updateControllers (f ^ 2 • resize D⁻¹ D⁻¹ mass) (f ^ 2 • resize D⁻¹ D⁻¹ visc) (f ^ 2 • resize D⁻¹ D⁻¹ nle) dt (vals.map (imageCtrl f D)) =
      (updateControllers mass visc nle dt vals).map fun o =>
        ⟨f ^ 2 • (D⁻¹ * o.gforce), f ^ 2 • resize D⁻¹ D⁻¹ o.impedance, (f ^ 2)⁻¹ • resize D D o.admittance⟩ := by
  have hr : f ^ 2 ≠ 0 := pow_ne_zero 2 hf.ne'
  simp only [updateControllers, if_pos hdt, sumControllers_eq, zero_add, List.map_map]
  have e1 : (vals.map ((fun x => x.gforce) ∘ imageCtrl f D)).sum = f ^ 2 • (D⁻¹ * (vals.map (·.gforce)).sum) := by
    rw [← List.sum_map_mul_left, List.smul_sum, List.map_map]; rfl
  have e2 : (vals.map ((fun x => x.impedance) ∘ imageCtrl f D)).sum = f ^ 2 • resize D⁻¹ D⁻¹ (vals.map (·.impedance)).sum := by
    rw [resize_sum, List.smul_sum, List.map_map, List.map_map]; rfl
  have e3 : dt⁻¹ • f ^ 2 • resize D⁻¹ D⁻¹ mass + f ^ 2 • resize D⁻¹ D⁻¹ visc + f ^ 2 • resize D⁻¹ D⁻¹ nle -
        (vals.map ((fun x => x.impedance) ∘ imageCtrl f D)).sum =
      f ^ 2 • resize D⁻¹ D⁻¹ (dt⁻¹ • mass + visc + nle - (vals.map (·.impedance)).sum) := by
    rw [e2, resize_sub, resize_add, resize_add, resize_smul, smul_sub, smul_add, smul_add, smul_comm dt⁻¹]
  rw [e1, e3]
  generalize dt⁻¹ • mass + visc + nle - (vals.map (·.impedance)).sum = Z
  have hp : ∏ i, (D⁻¹) i ≠ 0 := Finset.prod_ne_zero_iff.mpr fun i _ => inv_ne_zero (hD i)
  have hdet : (f ^ 2 • resize D⁻¹ D⁻¹ Z).det = 0 ↔ Z.det = 0 := by
    rw [Matrix.det_smul, resize_det]
    simp only [mul_eq_zero, pow_eq_zero_iff', hp, hr, false_and, false_or, or_false]
  by_cases hz : Z.det = 0
  · rw [if_pos hz, if_pos (hdet.mpr hz)]; rfl
  · rw [if_neg hz, if_neg fun h => hz (hdet.mp h), except_map_ok]
    congr 2
    apply Matrix.inv_eq_left_inv
    rw [Matrix.smul_mul, Matrix.mul_smul, smul_smul, inv_mul_cancel₀ hr, one_smul, resize_mul (inv_right hD),
      Matrix.nonsing_inv_mul _ (isUnit_iff_ne_zero.mpr hz), resize_one (inv_right hD)]

lemma controllers_image {n : ℕ} {σ : Type} (hf : 0 < f) (hs : IsSigns s) {G : Body → Prop} {P P' : Plug n σ} (hP : ImageControl f s G P P') {dt : ℝ}
    (hdt : 0 < dt) (w : MWorld n σ) (hw : ImageOk G w) :
    controllers P' dt (image f s w) = (controllers P dt w).map (image f s) ∧ ∀ a, controllers P dt w = .ok a → ImageOk G a := by
  unfold controllers
  rw [hP w dt hw.2.2.2]
  cases P.ctrl w dt with
  | error e => exact ⟨rfl, fun a h => by cases h⟩
  | ok r =>
    simp only [except_map_ok]
    have h := updateControllers_image hf (gvelF f s w.tree) (gvelF_ne hf hs w.tree) w.mass w.viscosity w.nleffects hdt r.2
    have e : updateControllers (image f s w).mass (image f s w).viscosity (image f s w).nleffects dt (r.2.map (imageCtrl f (gvelF f s w.tree))) = _ := h
    rw [e]
    cases updateControllers w.mass w.viscosity w.nleffects dt r.2 with
    | error e => exact ⟨rfl, fun a h => by cases h⟩
    | ok o => exact ⟨rfl, fun a h => by rw [← Except.ok.inj h]; exact hw⟩

lemma part_image {n : ℕ} (D v : Fin n → ℝ) (l : MLink) (h : Fit f s D l) (i : ℕ) (hi : i < l.att.ndof) :
    part (D * v) l.start i = dofF f s l.att i * part v l.start i := by
  unfold part
  by_cases hn : l.start + i < n
  · rw [dif_pos hn, dif_pos hn, Pi.mul_apply, h i hi hn]
  · rw [dif_neg hn, dif_neg hn, mul_zero]

lemma advance_image {n : ℕ} (hf : 0 < f) (hs : IsSigns s) (D v : Fin n → ℝ) (dt : ℝ) (l : MLink) (h : Fit f s D l) :
    advance (D * v) dt (imageLink f s l) = imageLink f s (advance v dt l) := by
  have hp := part_image D v l h
  obtain ⟨att, st, b0, b1⟩ := l
  cases att with
  | lin k q dq =>
    have e : (fun i : Fin k.ndof => part (D * v) st i.val) = fun i : Fin k.ndof => dofF f s (.lin k q dq) i.val * part v st i.val :=
      funext fun i => hp i.val i.isLt
    simp only [advance, imageLink, imageJoint, JAttr.integrate, e, linIntegrate]
    congr 2
    funext i
    simp only [Pi.add_apply, Pi.smul_apply, smul_eq_mul]
    change _ = dofF f s (.lin k q dq) i.val * _
    ring
  | free H T =>
    have e : (fun i : Fin 6 => part (D * v) st i.val) = twistF f s * fun i : Fin 6 => part v st i.val := by
      funext i
      rw [hp i.val i.isLt, Pi.mul_apply]
      congr 1
      fin_cases i <;> rfl
    simp only [advance, imageLink, imageJoint, JAttr.integrate, e, freeIntegrate, ← mul_smul_comm, twistExp_image hf hs, imagePose_mul hf hs]
  | fixed => rfl

lemma jointAxes_advance {n : ℕ} (v : Fin n → ℝ) (dt : ℝ) (l : MLink) : jointAxes (advance v dt l).att = jointAxes l.att := by
  obtain ⟨att, st, b0, b1⟩ := l
  cases att <;> rfl

lemma ndof_advance {n : ℕ} (v : Fin n → ℝ) (dt : ℝ) (l : MLink) : (advance v dt l).att.ndof = l.att.ndof := by
  obtain ⟨att, st, b0, b1⟩ := l
  cases att <;> rfl

lemma links_mapL (g : MLink → MLink) (F : Forest MLink Body) : (F.map g id).links = F.links.map g := by
  induction F with
  | nil => rfl
  | cons l b ch sib ih1 ih2 => simp only [Forest.map, Forest.links, List.map_append, List.map_cons, ih1, ih2, List.cons_append]

lemma numbered_advance {n : ℕ} (v : Fin n → ℝ) (dt : ℝ) (a : ℕ) (ls : List MLink) (h : Numbered a ls) : Numbered a (ls.map (advance v dt)) := by
  induction ls generalizing a with
  | nil => trivial
  | cons l ls ih => exact ⟨h.1, by rw [ndof_advance]; exact ih _ h.2⟩

lemma gvelF_advance {n : ℕ} (v : Fin n → ℝ) (dt : ℝ) (F : Forest MLink Body) : (gvelF f s (F.map (advance v dt) id) : Fin n → ℝ) = gvelF f s F := by
  funext i
  simp only [gvelF, treeF, links_mapL, List.flatMap_map, jointAxes_advance]

lemma map_advance_image {n : ℕ} (hf : 0 < f) (hs : IsSigns s) (D v : Fin n → ℝ) (dt : ℝ) (F : Forest MLink Body) (h : ∀ l ∈ F.links, Fit f s D l) :
    (F.map (imageLink f s) (imageBody f s)).map (advance (D * v) dt) id = (F.map (advance v dt) id).map (imageLink f s) (imageBody f s) := by
  induction F with
  | nil => rfl
  | cons l b ch sib ih1 ih2 =>
    simp only [Forest.links, List.cons_append, List.mem_cons, List.mem_append] at h
    simp only [Forest.map, advance_image hf hs D v dt l (h l (Or.inl rfl)), ih1 fun l' h' => h l' (Or.inr (Or.inl h')),
      ih2 fun l' h' => h l' (Or.inr (Or.inr h')), id]

lemma integrate_image {n : ℕ} {σ : Type} (hf : 0 < f) (hs : IsSigns s) (G : Body → Prop) {dt : ℝ} (hdt : 0 < dt) (w : MWorld n σ)
    (hw : ImageOk G w) :
    Mech.integrate dt (image f s w) = (Mech.integrate dt w).map (image f s) ∧ ∀ a, Mech.integrate dt w = .ok a → ImageOk G a := by
  have hD := gvelF_ne (n := n) hf hs w.tree
  simp only [Mech.integrate, integrateGvel, if_pos hdt]
  have e : (image f s w).ctrl.admittance *ᵥ ((image f s w).mass *ᵥ (dt⁻¹ • (image f s w).gvel) + (image f s w).ctrl.gforce) =
      gvelF f s w.tree * (w.ctrl.admittance *ᵥ (w.mass *ᵥ (dt⁻¹ • w.gvel) + w.ctrl.gforce)) := by
    have hr : f ^ 2 ≠ 0 := pow_ne_zero 2 hf.ne'
    simp only [image]
    generalize hDe : gvelF f s w.tree = D at hD ⊢
    rw [← mul_smul_comm, Matrix.smul_mulVec, Matrix.smul_mulVec, resize_mulVec (inv_left hD), ← smul_add, ← mul_add, Matrix.mulVec_smul, smul_smul,
      inv_mul_cancel₀ hr, one_smul, resize_mulVec (inv_right hD)]
  refine ⟨?_, fun a h => ?_⟩
  · rw [e]
    simp only [except_map_ok]
    congr 1
    simp only [image, gvelF_advance]
    congr 1
    exact map_advance_image hf hs _ _ dt w.tree (fit_of_numbered hw.2.1)
  · rw [← Except.ok.inj h]
    exact ⟨hw.1, by rw [links_mapL]; exact numbered_advance _ _ _ _ hw.2.1, by simpa [bodies_map_link] using hw.2.2.1, hw.2.2.2⟩

/-! ### the simulation -/

lemma simulate_from {W W' : Type*} {E : Engine W} {E' : Engine W'} {g : W → W'} {I0 I : W → Prop}
    (hi : ∀ w, I0 w → E'.init (g w) = (E.init w).map g ∧ ∀ a, E.init w = .ok a → I a)
    (hd : ∀ w, I w → E'.dynamic (g w) = (E.dynamic w).map g ∧ ∀ a, E.dynamic w = .ok a → I a)
    (hc : ∀ dt w, 0 < dt → I w → E'.controllers dt (g w) = (E.controllers dt w).map g ∧ ∀ a, E.controllers dt w = .ok a → I a)
    (hs : ∀ dt w, 0 < dt → I w → E'.constraints dt (g w) = (E.constraints dt w).map g ∧ ∀ a, E.constraints dt w = .ok a → I a)
    (hg : ∀ dt w, 0 < dt → I w → E'.integrate dt (g w) = (E.integrate dt w).map g ∧ ∀ a, E.integrate dt w = .ok a → I a)
    (w : W) (hI : I0 w) (tl : List ℝ) (obs : Observers) :
    simulate E' (g w) tl obs =
      ((simulate E w tl obs).1.map (seeing g), (simulate E w tl obs).2.map fun r => (g r.1, r.2)) := by
  have hsee : seenAt 1 g = seeing g := by
    funext e
    cases e <;> simp [seenAt, seeing]
  cases tl with
  | nil => rfl
  | cons t0 rest =>
    simp only [simulate, call, (hi w hI).1]
    have hI2 := (hi w hI).2
    cases ha : E.init w with
    | error e => rfl
    | ok a =>
      simp only [except_map_ok]
      have h := loop_units one_pos hd (fun dt w h0 h1 => by rw [one_mul]; exact hc dt w h0 h1) (fun dt w h0 h1 => by rw [one_mul]; exact hs dt w h0 h1)
        (fun dt w h0 h1 => by rw [one_mul]; exact hg dt w h0 h1) obs.later rest
        ([] ++ [Ev.worldInit] ++ (List.range obs.first).map fun i => Ev.obsInit i t0 a (t0 :: rest)) a t0 (hI2 a ha)
      simp only [one_mul, List.map_id', hsee] at h
      have e : ([] ++ [Ev.worldInit] ++ (List.range obs.first).map fun i => Ev.obsInit i t0 (g a) (t0 :: rest)) =
          ([] ++ [Ev.worldInit] ++ (List.range obs.first).map fun i => Ev.obsInit i t0 a (t0 :: rest)).map (seeing g) := by
        simp only [List.map_append, List.map_map]
        rfl
      rw [e, h]
      cases loop E obs.later rest ([] ++ [Ev.worldInit] ++ (List.range obs.first).map fun i => Ev.obsInit i t0 a (t0 :: rest)) a t0 with
      | mk tr r =>
        cases r with
        | error x => rfl
        | ok r =>
          simp only [except_map_ok, List.map_append, List.map_map]
          rfl

/-- the simulation of the image is the image of the simulation -/
lemma image_run {n : ℕ} {σ : Type} (hf : 0 < f) (hs : IsSigns s) {G : Body → Prop} {P P' : Plug n σ} (hP : ImageControl f s G P P') (w : MWorld n σ)
    (hc : w.cons = []) (hb : ∀ b ∈ w.tree.bodies, G b) (hx : ∀ x ∈ w.dyn, G x.1) (tl : List ℝ) (obs : Observers) :
    simulate (engine P') (image f s w) tl obs =
      ((simulate (engine P) w tl obs).1.map (seeing (image f s)), (simulate (engine P) w tl obs).2.map fun r => (image f s r.1, r.2)) := by
  refine simulate_from (I0 := ImageOk0 G) (I := ImageOk G) (init_image G) (dynamic_image hf hs G) 
    (fun dt w hdt hw => controllers_image hf hs hP hdt w hw) (fun dt w hdt hw => ?_)
    (fun dt w hdt hw => integrate_image hf hs G hdt w hw) w ⟨hc, hb, hx⟩ tl obs
  simp only [engine, constraints_none P hdt w hw.1, constraints_none P' hdt (image f s w) hw.1]
  exact ⟨rfl, fun a h => by rw [← Except.ok.inj h]; exact hw⟩

/-! ### what images are -/

/-- C105, C106: `imagePose`, `imageBody` are what they are said to be: the image of a point of a moving frame is the point
with the image coordinates in the image of the frame. -/
theorem C105_points (hf : 0 < f) (hs : IsSigns s) (H : Mat4) (p : Fin 4 → ℝ) :
    imagePose f s H *ᵥ (pointF f s * p) = pointF f s * (H *ᵥ p) := resize_mulVec (inv_left (pointF_ne hf hs)) H p

/-- C105, C106: the image of a rigid body has the same mass; its centre of mass is the image of the centre of mass; its
inertia tensor is the conjugate of the inertia tensor by the reflection, times `f ^ 2`. -/
theorem C105_body (hf : 0 < f) (hs : IsSigns s) {b : Body} {m : ℝ} {c : Vec3} {I : Mat3} (h : IsRigidMass b.mass m c I) :
    IsRigidMass (imageBody f s b).mass m (f • (s * c)) (f ^ 2 • (diagonal s * I * diagonal s)) := by
  have e : ∀ M : Mat3, diagonal s * M * diagonal s = cj s M := fun M => (resize_eq s s M).symm
  refine ⟨?_, ?_⟩
  · rw [Matrix.transpose_smul, e, ← cj_transpose, h.symm]
  · rw [e]
    simp only [imageBody]
    rw [h.eq, skew_smul, skew_image hs]
    have hg := sgn_sq hs
    have hf' := hf.ne'
    ext i j
    obtain ⟨i, rfl⟩ := e6.surjective i
    obtain ⟨j, rfl⟩ := e6.surjective j
    rcases i with i | i <;> rcases j with j | j <;>
      simp only [resize, blk, Matrix.of_apply, Matrix.submatrix_apply, Equiv.symm_apply_apply, Matrix.fromBlocks_apply₁₁,
        Matrix.fromBlocks_apply₁₂, Matrix.fromBlocks_apply₂₁, Matrix.fromBlocks_apply₂₂, Pi.inv_apply, twistF_inl, twistF_inr,
        mul_inv, sign_inv hs, sgn_inv hs, cj_apply, Matrix.smul_apply, Matrix.neg_apply, smul_eq_mul]
    · linear_combination (f ^ 2 * s i * I i j * s j) * hg
    · field_simp
    · field_simp
    · by_cases hij : i = j
      · subst hij
        have hi := signs_sq hs i
        rw [Matrix.one_apply_eq]
        field_simp
        linear_combination m * hi
      · rw [Matrix.one_apply_ne hij]; ring

/-! ### gravity -/

lemma gravityTwist_image (γ : ℝ) (up : Vec3) : gravityTwist (f * γ) (s * up) = twistF f s * gravityTwist γ up := by
  rw [gravityTwist, gravityTwist, tw_image]
  congr 1
  · simp
  · rw [mul_smul, mul_smul_comm]

lemma weight_image {n : ℕ} {σ : Type} (hf : 0 < f) (hs : IsSigns s) (G : Body → Prop)
    (hG : ∀ b, G b → (weightNorm (imageBody f s b).mass ≠ 0 ↔ weightNorm b.mass ≠ 0)) (γ : ℝ) (up : Vec3) :
    ImageControl f s G (weightPlug n σ γ up) (weightPlug n σ (f * γ) (s * up)) := by
  classical
  intro w dt hw
  have hl := inv_left (twistF_ne hf hs)
  simp only [weightPlug]
  suffices h : weightUpdateE (f * γ) (s * up) (image f s w).dyn = (weightUpdateE γ up w.dyn).map (imageCtrl f (gvelF f s w.tree)) by
    rw [h]
    cases weightUpdateE γ up w.dyn <;> rfl
  have hdyn : (image f s w).dyn = w.dyn.map fun x => (imageBody f s x.1, imageDyn f s (gvelF f s w.tree) x.2) := rfl
  rw [hdyn]
  generalize gvelF f s w.tree = D
  have key : ∀ (l : List (Body × BodyDyn n)) (acc : Fin n → ℝ),
      ((l.map fun x => (imageBody f s x.1, imageDyn f s D x.2)).foldlM (init := f ^ 2 • (D⁻¹ * acc)) fun acc x => do
        let A ← iadjoint x.2.pose
        return acc + x.2.jacᵀ *ᵥ (x.1.mass *ᵥ (A *ᵥ gravityTwist (f * γ) (s * up))) : Except PyErr (Fin n → ℝ)) =
      (l.foldlM (init := acc) fun acc x => do
        let A ← iadjoint x.2.pose
        return acc + x.2.jacᵀ *ᵥ (x.1.mass *ᵥ (A *ᵥ gravityTwist γ up)) : Except PyErr (Fin n → ℝ)).map fun v => f ^ 2 • (D⁻¹ * v) := by
    intro l
    induction l with
    | nil => intro acc; rfl
    | cons x l ih =>
      intro acc
      rw [List.map_cons, List.foldlM_cons, List.foldlM_cons]
      have e1 : (imageDyn f s D x.2).pose = imagePose f s x.2.pose := rfl
      simp only [e1]
      rw [iadjoint_eq, iadjoint_eq]
      unfold assertHom
      by_cases hh : ishomogeneousmatrix x.2.pose
      · rw [if_pos hh, if_pos ((hom_image hf hs _).mpr hh)]
        have e : f ^ 2 • (D⁻¹ * acc) + (imageDyn f s D x.2).jacᵀ *ᵥ ((imageBody f s x.1).mass *ᵥ
              (iadjointBody (imagePose f s x.2.pose) *ᵥ gravityTwist (f * γ) (s * up))) =
            f ^ 2 • (D⁻¹ * (acc + x.2.jacᵀ *ᵥ (x.1.mass *ᵥ (iadjointBody x.2.pose *ᵥ gravityTwist γ up)))) := by
          simp only [iadjointBody, invBody_image hf hs, adjointBody_image hf hs, gravityTwist_image, resize_mulVec hl, imageBody, imageDyn,
            Matrix.smul_mulVec, Matrix.mulVec_smul, resize_transpose, resize_mulVec (inv_right (twistF_ne hf hs)), mul_add, smul_add]
        simp only [bind, Except.bind, pure, Except.pure, e]
        exact ih _
      · rw [if_neg hh, if_neg fun h => hh ((hom_image hf hs _).mp h)]
        rfl
  have hk := key (w.dyn.filter fun x => weightNorm x.1.mass ≠ 0) 0
  rw [mul_zero, smul_zero] at hk
  have hfil : (w.dyn.map fun x => (imageBody f s x.1, imageDyn f s D x.2)).filter (fun x => decide (weightNorm x.1.mass ≠ 0)) =
      (w.dyn.filter fun x => decide (weightNorm x.1.mass ≠ 0)).map fun x => (imageBody f s x.1, imageDyn f s D x.2) := by
    rw [List.filter_map]
    congr 1
    apply List.filter_congr
    intro x hx
    simp only [Function.comp]
    rw [decide_eq_decide]
    exact hG _ (hw x hx)
  unfold weightUpdateE
  simp only [hfil]
  rw [hk]
  generalize List.foldlM (m := Except PyErr) _ (0 : Fin n → ℝ) (w.dyn.filter fun x => decide (weightNorm x.1.mass ≠ 0)) = r
  cases r with
  | error e => rfl
  | ok v => simp only [except_map_ok, bind, Except.bind, pure, Except.pure, imageCtrl, resize_zero, smul_zero]

lemma weightNorm_ne (M : Mat6) : weightNorm M ≠ 0 ↔ ∃ i j, 0 < M i j := by
  have hn : ∀ i j, (0 : ℝ) ≤ (if 0 < M i j then (1 : ℝ) else 0) ^ 2 := fun i j => sq_nonneg _
  have hn1 : ∀ i, (0 : ℝ) ≤ ∑ j, (if 0 < M i j then (1 : ℝ) else 0) ^ 2 := fun i => Finset.sum_nonneg fun j _ => hn i j
  rw [weightNorm, Ne, Real.sqrt_eq_zero (Finset.sum_nonneg fun i _ => hn1 i), Finset.sum_eq_zero_iff_of_nonneg fun i _ => hn1 i]
  push Not
  constructor
  · rintro ⟨i, _, h⟩
    rw [Ne, Finset.sum_eq_zero_iff_of_nonneg fun j _ => hn i j] at h
    push Not at h
    obtain ⟨j, _, h⟩ := h
    refine ⟨i, j, ?_⟩
    by_contra h'
    rw [if_neg h'] at h
    norm_num at h
  · rintro ⟨i, j, h⟩
    refine ⟨i, Finset.mem_univ _, ?_⟩
    rw [Ne, Finset.sum_eq_zero_iff_of_nonneg fun j _ => hn i j]
    push Not
    refine ⟨j, Finset.mem_univ _, ?_⟩
    rw [if_pos h]
    norm_num

/-! ### C105 -/

/-- the mass matrix is zero or has a positive diagonal entry, as every positive semi-definite matrix -/
def Spec.Heavy (b : Body) : Prop := b.mass = 0 ∨ ∃ i, 0 < b.mass i i

/-- C105: a mechanism and its mirror image move alike: for every world without constraints (even one whose simulation
fails), every plane of coordinates (or several), every timeline, the simulation of the mirror image by controllers
that do in the mirror what the original ones do is the mirror image of the simulation: same calls, same exceptions, every
observer seeing the mirror image of the world. -/
theorem C105_run {n : ℕ} {σ : Type} {s : Vec3} (hs : IsSigns s) {G : Body → Prop} {P P' : Plug n σ} (hP : ImageControl 1 s G P P') (w : MWorld n σ)
    (hc : w.cons = []) (hb : ∀ b ∈ w.tree.bodies, G b) (hx : ∀ x ∈ w.dyn, G x.1) (tl : List ℝ) (obs : Observers) :
    simulate (engine P') (image 1 s w) tl obs =
      ((simulate (engine P) w tl obs).1.map (seeing (image 1 s)), (simulate (engine P) w tl obs).2.map fun r => (image 1 s r.1, r.2)) :=
  image_run one_pos hs hP w hc hb hx tl obs

/-- C105: gravity: a `WeightController` whose vertical is mirrored does in the mirror what it did; in particular the same
controller if the plane is vertical. -/
theorem C105_weight {n : ℕ} {σ : Type} {s : Vec3} (hs : IsSigns s) (γ : ℝ) (up : Vec3) :
    ImageControl 1 s Heavy (weightPlug n σ γ up) (weightPlug n σ γ (s * up)) := by
  have h := weight_image (n := n) (σ := σ) one_pos hs Heavy (fun b hb => ?_) γ up
  · rwa [one_mul] at h
  rw [weightNorm_ne, weightNorm_ne]
  have hd : ∀ i, (imageBody 1 s b).mass i i = b.mass i i := by
    intro i
    have h0 := signs_sq hs 0
    have h1 := signs_sq hs 1
    have h2 := signs_sq hs 2
    have h3 : twistF 1 s i * twistF 1 s i = 1 := by
      obtain ⟨i, rfl⟩ := e6.surjective i
      have hg := sgn_sq hs
      rcases i with i | i
      · rw [twistF_inl]
        have hi := signs_sq hs i
        linear_combination hg * (s i * s i) + hi
      · rw [twistF_inr]
        have hi := signs_sq hs i
        linear_combination hi
    have h4 : (twistF 1 s i)⁻¹ * (twistF 1 s i)⁻¹ = 1 := by rw [← mul_inv, h3, inv_one]
    simp only [imageBody, resize, Matrix.smul_apply, Matrix.of_apply, Pi.inv_apply, smul_eq_mul]
    linear_combination (b.mass i i) * h4
  rcases hb with hb | ⟨i, hb⟩
  · simp [imageBody, hb, resize_zero]
  · exact ⟨fun _ => ⟨i, i, hb⟩, fun _ => ⟨i, i, by rw [hd]; exact hb⟩⟩

/-! ### C106 -/

lemma isSigns_one : IsSigns 1 := fun _ => Or.inl rfl

/-- C106: the unit of length does not matter: for every world without constraints (even one whose simulation fails), every
timeline, the simulation of the same world described with another unit of length (numbers measuring lengths being multiplied
by `f`) by controllers that do the same is the same simulation: same calls, same exceptions, every observer seeing the same
world in the new unit. -/
theorem C106_run {n : ℕ} {σ : Type} {f : ℝ} (hf : 0 < f) {P P' : Plug n σ} (hP : ImageControl f 1 (fun _ => True) P P') (w : MWorld n σ)
    (hc : w.cons = []) (tl : List ℝ) (obs : Observers) :
    simulate (engine P') (image f 1 w) tl obs =
      ((simulate (engine P) w tl obs).1.map (seeing (image f 1)), (simulate (engine P) w tl obs).2.map fun r => (image f 1 r.1, r.2)) :=
  image_run hf isSigns_one hP w hc (fun _ _ => trivial) (fun _ _ => trivial) tl obs

/-- C106: gravity: in the new unit the acceleration of gravity is multiplied by `f`, and a `WeightController` does what it
did. -/
theorem C106_weight {n : ℕ} {σ : Type} {f : ℝ} (hf : 0 < f) (γ : ℝ) (up : Vec3) :
    ImageControl f 1 (fun _ => True) (weightPlug n σ γ up) (weightPlug n σ (f * γ) up) := by
  have h := weight_image (n := n) (σ := σ) hf isSigns_one (fun _ => True) (fun b _ => ?_) γ up
  · rwa [one_mul] at h
  rw [weightNorm_ne, weightNorm_ne]
  have hp : ∀ i, 0 < (twistF f 1 i)⁻¹ := by
    intro i
    obtain ⟨i, rfl⟩ := e6.surjective i
    rcases i with i | i
    · rw [twistF_inl]; simp [sgn]
    · rw [twistF_inr]; simpa using hf
  have e : ∀ i j, 0 < (imageBody f 1 b).mass i j ↔ 0 < b.mass i j := by
    intro i j
    simp only [imageBody, resize, Matrix.smul_apply, Matrix.of_apply, Pi.inv_apply, smul_eq_mul]
    rw [show f ^ 2 * ((twistF f 1 i)⁻¹ * b.mass i j * (twistF f 1 j)⁻¹) = (f ^ 2 * ((twistF f 1 i)⁻¹ * (twistF f 1 j)⁻¹)) * b.mass i j by ring]
    exact mul_pos_iff_of_pos_left (mul_pos (pow_pos hf 2) (mul_pos (hp i) (hp j)))
  simp only [e]

/-! ### C107 -/

lemma image_fixed_of_map {α : Type*} {g : α → α} {l : List α} (h : l = l.map g) {x : α} (hx : x ∈ l) : g x = x := by
  induction l with
  | nil => cases hx
  | cons a l ih =>
    rw [List.map_cons, List.cons.injEq] at h
    rcases List.mem_cons.mp hx with rfl | hx
    · exact h.1.symm
    · exact ih h.2 hx

/-- C107: what is symmetric stays symmetric: if a world is its own mirror image and its controllers do in the mirror what
they do in the world, then at every step of every simulation the world shown to the observers is its own mirror image, and the
origins of all the bodies are in the plane of the mirror. -/
theorem C107_run {n : ℕ} {σ : Type} {s : Vec3} (hs : IsSigns s) {G : Body → Prop} {P : Plug n σ} (hP : ImageControl 1 s G P P) (w : MWorld n σ)
    (hc : w.cons = []) (hb : ∀ b ∈ w.tree.bodies, G b) (hx : ∀ x ∈ w.dyn, G x.1) (hw : image 1 s w = w) (tl : List ℝ) (obs : Observers) :
    (∀ i dt t w', Ev.obsUpdate i dt t w' ∈ (simulate (engine P) w tl obs).1 →
      image 1 s w' = w' ∧ ∀ x ∈ w'.dyn, ∀ a, s a = -1 → pos x.2.pose a = 0) ∧
    ∀ w' t, (simulate (engine P) w tl obs).2 = .ok (w', t) → image 1 s w' = w' ∧ ∀ x ∈ w'.dyn, ∀ a, s a = -1 → pos x.2.pose a = 0 := by
  have key : ∀ w' : MWorld n σ, image 1 s w' = w' → ∀ x ∈ w'.dyn, ∀ a, s a = -1 → pos x.2.pose a = 0 := by
    intro w' h x hx a ha
    have h1 : (image 1 s w').dyn = w'.dyn := by rw [h]
    have h2 := image_fixed_of_map h1.symm hx
    have h3 : imagePose 1 s x.2.pose = x.2.pose := congrArg (fun y : Body × BodyDyn n => y.2.pose) h2
    have h4 := congrFun (pos_image (f := 1) (s := s) x.2.pose) a
    rw [h3, one_smul, Pi.mul_apply, ha] at h4
    linarith
  have h := C105_run hs hP w hc hb hx tl obs
  rw [hw] at h
  have h1 := congrArg Prod.fst h
  have h2 := congrArg Prod.snd h
  simp only at h1 h2
  refine ⟨fun i dt t w' hm => ?_, fun w' t hr => ?_⟩
  · have := image_fixed_of_map h1 hm
    simp only [seeing, Ev.obsUpdate.injEq, true_and] at this
    exact ⟨this, key w' this⟩
  · rw [hr, except_map_ok] at h2
    have := congrArg Prod.fst (Except.ok.inj h2)
    exact ⟨this.symm, key w' this.symm⟩

/-! ### the hypotheses can be met -/

lemma heavy_one : Heavy ⟨1, 0⟩ := Or.inr ⟨0, by simp⟩

/-- `x ↦ -x` -/
def Spec.flipX : Vec3 := ![-1, 1, 1]

lemma isSigns_flipX : IsSigns flipX := by
  intro i
  fin_cases i
  · exact Or.inr rfl
  · exact Or.inl rfl
  · exact Or.inl rfl

/-- `C105_run`: the top of `C87_example` under gravity in the mirror `x = 0` -/
example (tl : List ℝ) (obs : Observers) :
    simulate (engine (weightPlug 1 Unit (-9.81) ![0, 1, 0])) (image 1 flipX top) tl obs =
      ((simulate (engine (weightPlug 1 Unit (-9.81) ![0, 1, 0])) top tl obs).1.map (seeing (image 1 flipX)),
       (simulate (engine (weightPlug 1 Unit (-9.81) ![0, 1, 0])) top tl obs).2.map fun r => (image 1 flipX r.1, r.2)) := by
  have h := C105_weight (n := 1) (σ := Unit) isSigns_flipX (-9.81) ![0, 1, 0]
  have e : flipX * ![0, 1, 0] = (![0, 1, 0] : Vec3) := by funext i; fin_cases i <;> simp [flipX]
  rw [e] at h
  refine C105_run isSigns_flipX h top rfl (fun b hb => ?_) (fun x hx => by cases hx) tl obs
  simp only [top, topTree, Forest.bodies, List.append_nil, List.mem_singleton] at hb
  subst hb
  exact heavy_one

/-- in that mirror it turns the other way -/
example : (image 1 flipX top).tree = topTree 0 0 (-1) := by
  simp only [image, top, topTree, Forest.map]
  have h1 : imagePose 1 flipX 1 = 1 := imagePose_one one_pos isSigns_flipX
  have hF : twistF 1 flipX 2 = -1 := by
    change (-1 : ℝ) * 1 * 1 * 1 = -1
    norm_num
  congr 1
  · simp only [imageLink, h1]
    congr 1
    simp only [imageJoint]
    congr 1
    · funext i
      exact mul_zero _
    · funext (i : Fin 1)
      have : i = (0 : Fin 1) := Subsingleton.elim _ _
      subst this
      change twistF 1 flipX 2 * 1 = -1
      rw [hF]; norm_num
  · simp only [imageBody, resize_zero, smul_zero]
    congr 1
    have ht : ∀ i, (twistF 1 flipX)⁻¹ i * (twistF 1 flipX)⁻¹ i = 1 := by
      intro i
      fin_cases i <;> simp [twistF, flipX]
    rw [resize_one ht, one_pow, one_smul]

/-- `C106_run`: the top in millimetres -/
example (tl : List ℝ) (obs : Observers) :
    simulate (engine (weightPlug 1 Unit (1000 * -9.81) ![0, 1, 0])) (image 1000 1 top) tl obs =
      ((simulate (engine (weightPlug 1 Unit (-9.81) ![0, 1, 0])) top tl obs).1.map (seeing (image 1000 1)),
       (simulate (engine (weightPlug 1 Unit (-9.81) ![0, 1, 0])) top tl obs).2.map fun r => (image 1000 1 r.1, r.2)) :=
  C106_run (by norm_num) (C106_weight (by norm_num) _ _) top rfl tl obs

/-- a body thrown in the plane `x = 0`, spinning about the normal to the plane -/
def disc : MWorld 6 Unit := ⟨.cons ⟨.free 1 ![1, 0, 0, 0, 2, 3], 0, 1, 1⟩ ⟨1, 0⟩ .nil .nil, 0, [], 0, 0, 0, ⟨0, 0, 0⟩, [], ()⟩

/-- `C107_run`: under gravity, it stays in that plane -/
example (tl : List ℝ) (obs : Observers) :
    ∀ i dt t w', Ev.obsUpdate i dt t w' ∈ (simulate (engine (weightPlug 6 Unit (-9.81) ![0, 1, 0])) disc tl obs).1 →
      image 1 flipX w' = w' ∧ ∀ x ∈ w'.dyn, ∀ a, flipX a = -1 → pos x.2.pose a = 0 := by
  have h := C105_weight (n := 6) (σ := Unit) isSigns_flipX (-9.81) ![0, 1, 0]
  have e : flipX * ![0, 1, 0] = (![0, 1, 0] : Vec3) := by funext i; fin_cases i <;> simp [flipX]
  rw [e] at h
  refine (C107_run isSigns_flipX h disc rfl (fun b hb => ?_) (fun x hx => by cases hx) ?_ tl obs).1
  · simp only [disc, Forest.bodies, List.append_nil, List.mem_singleton] at hb
    subst hb
    exact heavy_one
  · have h1 : imagePose 1 flipX 1 = 1 := imagePose_one one_pos isSigns_flipX
    have ht : ∀ i, (twistF 1 flipX)⁻¹ i * (twistF 1 flipX)⁻¹ i = 1 := by
      intro i
      fin_cases i <;> simp [twistF, flipX]
    have hT : twistF 1 flipX * ![1, 0, 0, 0, 2, 3] = ![1, 0, 0, 0, 2, 3] := by
      funext i
      fin_cases i <;> simp [twistF, flipX]
    simp only [image, disc, Forest.map, imageLink, imageJoint, h1, hT, imageBody, resize_one ht, resize_zero, one_pow, one_smul, mul_zero, smul_zero,
      List.map_nil]

end
end Arboris
