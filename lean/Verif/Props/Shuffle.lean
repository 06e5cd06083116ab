import Verif.Spec.Shuffle
import Verif.Props.Moor
import Verif.Props.Family

/-!
# C94: the order in which joints are attached does not matter
-/

namespace Arboris
open Matrix Spec Mech Build Sim

noncomputable section

/-! ### shuffled forests -/

lemma shuffled_pairs {L L' B : Type} {R : L → L' → Prop} {F : Forest L B} {F' : Forest L' B} (h : Shuffled R F F') :
    ∃ ps : List (L × L'), ps.map Prod.fst = F.links ∧ (ps.map Prod.snd).Perm F'.links ∧ (∀ p ∈ ps, R p.1 p.2) ∧
      ∀ R' : L → L' → Prop, (∀ p ∈ ps, R' p.1 p.2) → Shuffled R' F F' := by
  induction h with
  | nil => exact ⟨[], rfl, List.Perm.refl _, by simp, fun _ _ => .nil⟩
  | @cons l l' b ch sib ch' before after hl hc hs ih1 ih2 =>
    obtain ⟨pc, c1, c2, c3, c4⟩ := ih1
    obtain ⟨ps, s1, s2, s3, s4⟩ := ih2
    refine ⟨(l, l') :: (pc ++ ps), ?_, ?_, ?_, ?_⟩
    · simp only [List.map_cons, List.map_append, c1, s1, Forest.links, List.cons_append]
    · simp only [List.map_cons, List.map_append, forest_links_append, Forest.links, List.cons_append]
      rw [forest_links_append] at s2
      refine List.Perm.trans ?_ List.perm_middle.symm
      refine List.Perm.cons _ ?_
      refine (c2.append s2).trans ?_
      rw [← List.append_assoc, ← List.append_assoc]
      exact List.Perm.append_right _ List.perm_append_comm
    · intro p hp
      rcases List.mem_cons.mp hp with rfl | hp
      · exact hl
      · rcases List.mem_append.mp hp with hp | hp
        · exact c3 p hp
        · exact s3 p hp
    · intro R' hR
      refine .cons (hR _ (List.mem_cons_self ..)) (c4 R' fun p hp => hR p ?_) (s4 R' fun p hp => hR p ?_)
      · simp [hp]
      · simp [hp]

lemma forestRel_append_inv {L B : Type} {R : L → L → Prop} {A C G : Forest L B} (h : ForestRel R (A.append C) G) :
    ∃ A' C', G = A'.append C' ∧ ForestRel R A A' ∧ ForestRel R C C' := by
  induction A generalizing G with
  | nil => exact ⟨.nil, G, rfl, .nil, h⟩
  | cons l b ch sib _ ih =>
    simp only [Forest.append] at h
    cases h with
    | cons hl hc hs =>
      obtain ⟨A', C', rfl, h1, h2⟩ := ih hs
      exact ⟨.cons _ b _ A', C', rfl, .cons hl hc h1, h2⟩

lemma ForestRel.app {L B : Type} {R : L → L → Prop} {A C A' C' : Forest L B} (h : ForestRel R A A') (h' : ForestRel R C C') :
    ForestRel R (A.append C) (A'.append C') := by
  induction h with
  | nil => exact h'
  | cons hl hc hs _ ih => exact .cons hl hc ih

lemma shuffled_rel {L B : Type} {R : L → L → Prop} {S S' R₂ : L → L → Prop}
    (hR : ∀ l l' m m', R l l' → S l m → S' l' m' → R₂ m m') {F F' G G' : Forest L B} (h : Shuffled R F F')
    (h1 : ForestRel S F G) (h2 : ForestRel S' F' G') : Shuffled R₂ G G' := by
  induction h generalizing G G' with
  | nil => cases h1; cases h2; exact .nil
  | @cons l l' b ch sib ch' before after hl hc hs ih1 ih2 =>
    cases h1 with
    | cons k1 k2 k3 =>
      obtain ⟨A, C, rfl, g1, g2⟩ := forestRel_append_inv h2
      cases g2 with
      | cons m1 m2 m3 => exact .cons (hR _ _ _ _ hl k1 m1) (ih1 k2 m2) (ih2 k3 (ForestRel.app g1 m3))

/-! ### the renumbering -/

lemma numbered_pairwise {a : ℕ} {ls : List MLink} (h : Numbered a ls) :
    ls.Pairwise fun x y => x.start + x.att.ndof ≤ y.start ∨ y.start + y.att.ndof ≤ x.start := by
  induction ls generalizing a with
  | nil => exact .nil
  | cons x ls ih =>
    obtain ⟨h1, h2⟩ := h
    refine .cons (fun y hy => Or.inl ?_) (ih h2)
    have := (h2.bounds hy).1
    omega

lemma renumbering {n : ℕ} {G G' : Forest MLink Body} (hn : ndof G = n) (h1 : Numbered 0 G.links) (h2 : Numbered 0 G'.links)
    (h : Shuffled SameJoint G G') : ∃ π : Equiv.Perm (Fin n), Shuffled (Renumbered π) G G' := by
  obtain ⟨ps, p1, p2, p3, p4⟩ := shuffled_pairs h
  have hs : (G'.links.map fun l => l.att.ndof).sum = n := by
    rw [← (p2.map fun l => l.att.ndof).sum_eq, List.map_map, ← hn, ndof, ← p1, List.map_map]
    apply congrArg
    apply List.map_congr_left
    intro p hp
    simp only [Function.comp_apply, (p3 p hp).att]
  have b1 : ∀ p ∈ ps, p.1.start + p.1.att.ndof ≤ n := by
    intro p hp
    have := (h1.bounds (l := p.1) (by rw [← p1]; exact List.mem_map_of_mem hp)).2
    rw [← hn]; simpa [ndof] using this
  have b2 : ∀ p ∈ ps, p.2.start + p.1.att.ndof ≤ n := by
    intro p hp
    have := (h2.bounds (l := p.2) (p2.subset (List.mem_map_of_mem hp))).2
    rw [(p3 p hp).att] at this
    omega
  have w1 : ps.Pairwise fun x y => x.1.start + x.1.att.ndof ≤ y.1.start ∨ y.1.start + y.1.att.ndof ≤ x.1.start := by
    have := numbered_pairwise h1
    rw [← p1, List.pairwise_map] at this
    exact this
  have w2 : ps.Pairwise fun x y => x.2.start + x.1.att.ndof ≤ y.2.start ∨ y.2.start + y.1.att.ndof ≤ x.2.start := by
    have := numbered_pairwise h2
    rw [← List.Perm.pairwise_iff (fun {x y} h => h.symm) p2, List.pairwise_map] at this
    refine this.imp_of_mem ?_
    intro x y hx hy hxy
    rw [(p3 x hx).att, (p3 y hy).att] at hxy
    exact hxy
  have u1 : ∀ p ∈ ps, ∀ q ∈ ps, p ≠ q → (p.1.start + p.1.att.ndof ≤ q.1.start ∨ q.1.start + q.1.att.ndof ≤ p.1.start) :=
    fun p hp q hq hpq => @List.Pairwise.forall _ _ _ ⟨fun _ _ h => h.symm⟩ w1 p hp q hq hpq
  have u2 : ∀ p ∈ ps, ∀ q ∈ ps, p ≠ q → (p.2.start + p.1.att.ndof ≤ q.2.start ∨ q.2.start + q.1.att.ndof ≤ p.2.start) :=
    fun p hp q hq hpq => @List.Pairwise.forall _ _ _ ⟨fun _ _ h => h.symm⟩ w2 p hp q hq hpq
  have hex : ∀ d : Fin n, ∃ p ∈ ps, p.1.start ≤ d.val ∧ d.val < p.1.start + p.1.att.ndof := by
    intro d
    obtain ⟨l, hl, h3, h4⟩ := numbered_cover h1 (Nat.zero_le d.val) (by have := d.isLt; simp only [ndof] at hn; omega)
    rw [← p1] at hl
    obtain ⟨p, hp, rfl⟩ := List.mem_map.mp hl
    exact ⟨p, hp, h3, h4⟩
  choose f hf hf1 hf2 using hex
  have hlt : ∀ d : Fin n, (f d).2.start + (d.val - (f d).1.start) < n := by
    intro d
    have := b2 _ (hf d)
    have := hf1 d
    have := hf2 d
    omega
  let g : Fin n → Fin n := fun d => ⟨(f d).2.start + (d.val - (f d).1.start), hlt d⟩
  have ginj : Function.Injective g := by
    intro d e hde
    have hv : (f d).2.start + (d.val - (f d).1.start) = (f e).2.start + (e.val - (f e).1.start) := congrArg Fin.val hde
    have hd1 := hf1 d
    have hd2 := hf2 d
    have he1 := hf1 e
    have he2 := hf2 e
    by_cases hpq : f d = f e
    · rw [hpq] at hv hd1 hd2
      apply Fin.ext
      omega
    · rcases u2 _ (hf d) _ (hf e) hpq with h | h <;> omega
  refine ⟨Equiv.ofBijective g (Finite.injective_iff_bijective.mp ginj), p4 _ fun p hp => ⟨p3 p hp, b1 p hp, fun i hi => ?_⟩⟩
  have hb := b1 p hp
  have hfp : f ⟨p.1.start + i, by omega⟩ = p := by
    by_contra hne
    have h5 := hf1 ⟨p.1.start + i, by omega⟩
    have h6 := hf2 ⟨p.1.start + i, by omega⟩
    simp only at h5 h6
    rcases u1 _ (hf ⟨p.1.start + i, by omega⟩) _ hp hne with h | h <;> omega
  simp only [Equiv.ofBijective_apply, g, hfp]
  omega

/-! ### matrices -/

section mats
variable {n : ℕ} (π : Equiv.Perm (Fin n))

lemma permVec_add (u v : Fin n → ℝ) : permVec π (u + v) = permVec π u + permVec π v := rfl
lemma permVec_smul (c : ℝ) (v : Fin n → ℝ) : permVec π (c • v) = c • permVec π v := rfl
lemma permVec_zero : permVec π 0 = 0 := rfl
lemma permMat_add (u v : Matrix (Fin n) (Fin n) ℝ) : permMat π (u + v) = permMat π u + permMat π v := rfl
lemma permMat_sub (u v : Matrix (Fin n) (Fin n) ℝ) : permMat π (u - v) = permMat π u - permMat π v := rfl
lemma permMat_smul (c : ℝ) (v : Matrix (Fin n) (Fin n) ℝ) : permMat π (c • v) = c • permMat π v := rfl
lemma permMat_zero : permMat π 0 = 0 := rfl
lemma permMat_eq (M : Matrix (Fin n) (Fin n) ℝ) : permMat π M = M.submatrix π.symm π.symm := rfl
lemma permCols_eq {m : Type} (M : Matrix m (Fin n) ℝ) : permCols π M = M.submatrix id π.symm := rfl
lemma permMat_det (M : Matrix (Fin n) (Fin n) ℝ) : (permMat π M).det = M.det := det_submatrix_equiv_self π.symm M
lemma permMat_inv (M : Matrix (Fin n) (Fin n) ℝ) : (permMat π M)⁻¹ = permMat π M⁻¹ := inv_submatrix_equiv M π.symm π.symm
lemma permMat_mulVec (M : Matrix (Fin n) (Fin n) ℝ) (v : Fin n → ℝ) : permMat π M *ᵥ permVec π v = permVec π (M *ᵥ v) := by
  funext i
  simp only [permMat, permVec, mulVec, dotProduct, Matrix.of_apply]
  exact π.symm.sum_comp fun j => M (π.symm i) j * v j
lemma permCols_add {m : Type} (A C : Matrix m (Fin n) ℝ) : permCols π (A + C) = permCols π A + permCols π C := rfl
lemma permCols_mul {m k : Type} [Fintype k] (A : Matrix m k ℝ) (J : Matrix k (Fin n) ℝ) : permCols π (A * J) = A * permCols π J := rfl
lemma permCols_zero {m : Type} : permCols π (0 : Matrix m (Fin n) ℝ) = 0 := rfl
lemma permCols_quad {m : Type} [Fintype m] (J K : Matrix m (Fin n) ℝ) : (permCols π J)ᵀ * permCols π K = permMat π (Jᵀ * K) := rfl
lemma permCols_mulVec {m : Type} (J : Matrix m (Fin n) ℝ) (v : Fin n → ℝ) : permCols π J *ᵥ permVec π v = J *ᵥ v := by
  funext i
  simp only [permCols, permVec, mulVec, dotProduct, Matrix.of_apply]
  exact π.symm.sum_comp fun j => J i j * v j
lemma permCols_tmulVec {m : Type} [Fintype m] (J : Matrix m (Fin n) ℝ) (f : m → ℝ) :
    (permCols π J)ᵀ *ᵥ f = permVec π (Jᵀ *ᵥ f) := rfl
lemma permMat_permCols {m : Type} (Y : Matrix (Fin n) (Fin n) ℝ) (J : Matrix m (Fin n) ℝ) :
    permMat π Y * (permCols π J)ᵀ = (permCols π (J * Yᵀ))ᵀ := by
  ext i j
  simp only [permMat, permCols, mul_apply, Matrix.transpose_apply, Matrix.of_apply]
  rw [π.symm.sum_comp fun x => Y (π.symm i) x * J j x]
  exact Finset.sum_congr rfl fun x _ => mul_comm _ _
lemma permCols_adm {m : Type} (Y : Matrix (Fin n) (Fin n) ℝ) (J K : Matrix m (Fin n) ℝ) :
    permCols π J * (permMat π Y * (permCols π K)ᵀ) = J * (Y * Kᵀ) := by
  rw [permMat_permCols]
  have : Y * Kᵀ = (K * Yᵀ)ᵀ := by rw [transpose_mul, transpose_transpose]
  rw [this]
  ext i j
  simp only [permCols, mul_apply, Matrix.transpose_apply, Matrix.of_apply]
  exact π.symm.sum_comp fun x => J i x * ∑ y, K j y * Y x y

lemma permMat_list {α : Type} (l : List α) (f : α → Matrix (Fin n) (Fin n) ℝ) :
    permMat π (l.map f).sum = (l.map fun x => permMat π (f x)).sum := by
  induction l with
  | nil => rfl
  | cons a l ih => simp only [List.map_cons, List.sum_cons, permMat_add, ih]
lemma permVec_list {α : Type} (l : List α) (f : α → Fin n → ℝ) :
    permVec π (l.map f).sum = (l.map fun x => permVec π (f x)).sum := by
  induction l with
  | nil => rfl
  | cons a l ih => simp only [List.map_cons, List.sum_cons, permVec_add, ih]

lemma permCols_addCols (A : Matrix (Fin 6) (Fin n) ℝ) {s s' k : ℕ} (C : Matrix (Fin 6) (Fin k) ℝ) (hb : s + k ≤ n)
    (hd : ∀ (i : ℕ) (h : i < k), (π ⟨s + i, by omega⟩).val = s' + i) :
    permCols π (addCols A s k C) = addCols (permCols π A) s' k C := by
  ext r c
  simp only [permCols, addCols, Matrix.of_apply]
  by_cases h : s ≤ (π.symm c).val ∧ (π.symm c).val < s + k
  · have h1 := hd ((π.symm c).val - s) (by omega)
    have e : (⟨s + ((π.symm c).val - s), by omega⟩ : Fin n) = π.symm c := Fin.ext (by simp only; omega)
    rw [e, Equiv.apply_symm_apply] at h1
    rw [dif_pos h, dif_pos (by omega)]
    congr 2
    apply Fin.ext
    simp only
    omega
  · rw [dif_neg h, dif_neg]
    rintro ⟨h1, h2⟩
    have h3 := hd (c.val - s') (by omega)
    have e : π ⟨s + (c.val - s'), by omega⟩ = c := Fin.ext (by omega)
    have e2 : π.symm c = ⟨s + (c.val - s'), by omega⟩ := by rw [Equiv.symm_apply_eq]; exact e.symm
    rw [e2] at h
    apply h
    simp only
    omega

end mats

/-! ### update_dynamic -/

section dyn
variable {n : ℕ} {π : Equiv.Perm (Fin n)}

lemma dynStep_perm {l l' : MLink} (h : Renumbered π l l') (s : BodyDyn n) :
    dynStep (permDyn π s) l'.link = permDyn π (dynStep s l.link) := by
  obtain ⟨⟨h1, h2, h3⟩, h4, h5⟩ := h
  obtain ⟨att, start, b0, b1⟩ := l
  obtain ⟨att', start', b0', b1'⟩ := l'
  simp only at h1 h2 h3 h4 h5
  subst h1 h2 h3
  simp only [dynStep, permDyn, MLink.link, permCols_addCols π _ _ h4 h5, permCols_add, permCols_mul]
  rfl

lemma updateDynamic_perm {F F' : Forest MLink Body} (h : Shuffled (Renumbered π) F F') (s : BodyDyn n) :
    (updateDynamic (permDyn π s) (F'.map MLink.link id)).Perm
      ((updateDynamic s (F.map MLink.link id)).map fun x => (x.1, permDyn π x.2)) := by
  induction h generalizing s with
  | nil => exact List.Perm.refl _
  | @cons l l' b ch sib ch' before after hl hc hs ih1 ih2 =>
    have h2 := ih2 s
    simp only [forest_map_append, updateDynamic_append] at h2
    simp only [forest_map_append, updateDynamic_append, Forest.map, updateDynamic, dynStep_perm hl, List.map_cons,
      List.map_append]
    refine List.Perm.trans List.perm_middle ?_
    refine List.Perm.cons _ ?_
    refine List.Perm.trans ?_ ((ih1 _).append h2)
    rw [← List.append_assoc, ← List.append_assoc]
    exact List.Perm.append_right _ List.perm_append_comm

open Classical in
lemma updateDynamicE_iff (F : Forest Link Body) (s : BodyDyn n) :
    updateDynamicE s F = if ∀ l ∈ F.links, linkOk l then .ok (updateDynamic s F) else .error .assertion := by
  induction F generalizing s with
  | nil => simp [updateDynamicE, updateDynamic, Forest.links]
  | cons l b ch sib ih1 ih2 =>
    simp only [updateDynamicE, dynStepE_iff, updateDynamic, Forest.links, List.cons_append, List.forall_mem_cons, List.forall_mem_append]
    by_cases h1 : linkOk l
    swap
    · simp only [h1, if_false, false_and]; rfl
    simp only [h1, if_true, true_and, bind, Except.bind, ih1, ih2]
    by_cases h2 : ∀ x ∈ ch.links, linkOk x
    swap
    · simp only [if_neg h2]
      rw [if_neg fun h => h2 h.1]
    simp only [if_pos h2]
    by_cases h3 : ∀ x ∈ sib.links, linkOk x
    swap
    · simp only [if_neg h3]
      rw [if_neg fun h => h3 h.2]
    simp only [if_pos h3]
    rw [if_pos ⟨h2, h3⟩]; rfl

lemma permDyn_ground : permDyn π (groundDyn n) = groundDyn n := rfl

lemma linkOk_shuffled {F F' : Forest MLink Body} (h : Shuffled (Renumbered π) F F') :
    (∀ l ∈ (F'.map MLink.link id).links, linkOk l) ↔ ∀ l ∈ (F.map MLink.link id).links, linkOk l := by
  obtain ⟨ps, p1, p2, p3, _⟩ := shuffled_pairs h
  have e : ∀ p ∈ ps, (linkOk p.2.link ↔ linkOk p.1.link) := by
    intro p hp
    have h := p3 p hp
    simp only [linkOk, MLink.link, h.bpose0, h.bpose1]
    rw [h.att]
  simp only [forest_links_map, List.mem_map, forall_exists_index, and_imp, forall_apply_eq_imp_iff₂]
  constructor
  · intro h l hl
    rw [← p1] at hl
    obtain ⟨p, hp, rfl⟩ := List.mem_map.mp hl
    exact (e p hp).mp (h _ (p2.subset (List.mem_map_of_mem hp)))
  · intro h l hl
    obtain ⟨p, hp, rfl⟩ := List.mem_map.mp (p2.symm.subset hl)
    exact (e p hp).mpr (h _ (by rw [← p1]; exact List.mem_map_of_mem hp))

lemma dynamic_shuffled {σ : Type} {w w' : MWorld n σ} (h : Reordered π w w') :
    Alike (Reordered π) (dynamic w) (dynamic w') := by
  have e := linkOk_shuffled h.tree
  have hp := updateDynamic_perm h.tree (groundDyn n)
  rw [permDyn_ground] at hp
  simp only [dynamic, updateDynamicE_iff]
  by_cases hk : ∀ l ∈ (w.tree.map MLink.link id).links, linkOk l
  swap
  · rw [if_neg hk, if_neg fun h => hk (e.mp h)]
    exact .error _
  rw [if_pos hk, if_pos (e.mpr hk)]
  refine .ok ⟨h.tree, h.gvel, hp, ?_, ?_, ?_, h.ctrl, h.cons, h.mem⟩
  · simp only [worldMass_eq, permMat_list, (hp.map _).sum_eq, List.map_map]
    rfl
  · simp only [worldViscosity_eq, permMat_list, (hp.map _).sum_eq, List.map_map]
    rfl
  · simp only [worldNleffects_eq, permMat_list, (hp.map _).sum_eq, List.map_map]
    rfl

end dyn

/-! ### init -/

lemma gather_shuffled {n : ℕ} {π : Equiv.Perm (Fin n)} {G G' : Forest MLink Body} (hn : ndof G = n) (h1 : Numbered 0 G.links)
    (h2 : Numbered 0 G'.links) (h : Shuffled (Renumbered π) G G') : (gather G'.links : Fin n → ℝ) = permVec π (gather G.links) := by
  obtain ⟨ps, p1, p2, p3, _⟩ := shuffled_pairs h
  funext d
  have hlt := (π.symm d).isLt
  obtain ⟨l, hl, h3, h4⟩ := numbered_cover h1 (Nat.zero_le (π.symm d).val) (by
    simp only [ndof] at hn; omega)
  have hl' := hl
  rw [← p1] at hl'
  obtain ⟨p, hp, rfl⟩ := List.mem_map.mp hl'
  have hr := p3 p hp
  have hg := gather_spec (n := n) h1 0 hl ((π.symm d).val - p.1.start) (by omega) (by omega)
  have hdof := hr.dof ((π.symm d).val - p.1.start) (by omega)
  have e : (⟨p.1.start + ((π.symm d).val - p.1.start), by omega⟩ : Fin n) = π.symm d := Fin.ext (by simp only; omega)
  rw [e] at hg hdof
  rw [Equiv.apply_symm_apply] at hdof
  have hg' := gather_spec (n := n) h2 0 (p2.subset (List.mem_map_of_mem hp)) ((π.symm d).val - p.1.start)
    (by rw [hr.att]; omega) (by rw [← hdof]; exact d.isLt)
  have e' : (⟨p.2.start + ((π.symm d).val - p.1.start), by rw [← hdof]; exact d.isLt⟩ : Fin n) = d := Fin.ext hdof.symm
  rw [e', hr.att] at hg'
  exact hg'.trans hg.symm

lemma init_shuffled {n : ℕ} {σ : Type} {w w' : MWorld n σ} (hn : ndof w.tree = n) (ht : Shuffled SameJoint w.tree w'.tree) :
    ∃ π : Equiv.Perm (Fin n), w.dyn = [] → w'.dyn = [] → w'.mem = w.mem → w'.cons = w.cons.map (permCon π) →
      w'.ctrl = permOut π w.ctrl → Alike (Reordered π) (Mech.init w) (Mech.init w') := by
  have h1 := (number_spec 0 w.tree).1
  have h2 := (number_spec 0 w'.tree).1
  have h3 : ndof (number 0 w.tree).1 = n := (number_spec 0 w.tree).2.2.trans hn
  have hs : Shuffled SameJoint (number 0 w.tree).1 (number 0 w'.tree).1 :=
    shuffled_rel (fun l l' m m' h e1 e2 => ⟨by rw [e1, e2]; exact h.att, by rw [e1, e2]; exact h.bpose0,
      by rw [e1, e2]; exact h.bpose1⟩) ht (number_rel 0 w.tree) (number_rel 0 w'.tree)
  obtain ⟨π, hπ⟩ := renumbering h3 h1 h2 hs
  refine ⟨π, fun hd hd' hm hc ho => .ok ⟨hπ, gather_shuffled h3 h1 h2 hπ, ?_, rfl, rfl, rfl, ?_, hc, hm⟩⟩
  · simp only [hd, hd', List.map_nil]; exact List.Perm.refl _
  · simp only [ho, permOut, permVec_zero]

/-! ### the step -/

section step
variable {n : ℕ} {σ : Type} {π : Equiv.Perm (Fin n)}

lemma updateControllers_perm (mass visc nle : Matrix (Fin n) (Fin n) ℝ) (dt : ℝ) (vals : List (CtrlVal n)) :
    updateControllers (permMat π mass) (permMat π visc) (permMat π nle) dt (vals.map (permVal π)) =
      (updateControllers mass visc nle dt vals).map (permOut π) := by
  simp only [updateControllers, sumControllers_eq, List.map_map]
  have e1 : (vals.map ((fun c : CtrlVal n => c.gforce) ∘ permVal π)).sum = permVec π (vals.map fun c => c.gforce).sum :=
    (permVec_list π vals _).symm
  have e2 : (vals.map ((fun c : CtrlVal n => c.impedance) ∘ permVal π)).sum = permMat π (vals.map fun c => c.impedance).sum :=
    (permMat_list π vals _).symm
  rw [e1, e2, ← permMat_smul, ← permMat_add, ← permMat_add, ← permMat_sub, permMat_det, permMat_inv]
  split_ifs <;> rfl

lemma controllers_shuffled {P P' : Plug n σ} (hP : Indifferent π P P') {w w' : MWorld n σ} (h : Reordered π w w') (dt : ℝ) :
    Alike (Reordered π) (controllers P dt w) (controllers P' dt w') := by
  unfold controllers
  rw [hP.ctrl w w' dt h, h.mass, h.viscosity, h.nleffects]
  cases P.ctrl w dt with
  | error e => exact .error e
  | ok r =>
    simp only [except_map_ok, updateControllers_perm]
    cases updateControllers w.mass w.viscosity w.nleffects dt r.2 with
    | error e => exact .error e
    | ok o => exact .ok ⟨h.tree, h.gvel, h.dyn, rfl, rfl, rfl, rfl, h.cons, rfl⟩

lemma activeCons_perm (dt : ℝ) (cs : List (Con n)) :
    activeCons dt (cs.map (permCon π)) = (activeCons dt cs).map (permCon π) := by
  induction cs with
  | nil => rfl
  | cons c cs ih =>
    rw [List.map_cons, activeCons_cons, activeCons_cons, ih]
    change (if c.cls.enabled c.st then if c.cls.active (c.cls.update c.st dt) then _ else _ else _) = _
    split_ifs <;> rfl

lemma writeBack_perm (dt : ℝ) (cs solved : List (Con n)) :
    writeBack dt (cs.map (permCon π)) (solved.map (permCon π)) = (writeBack dt cs solved).map (permCon π) := by
  induction cs generalizing solved with
  | nil => rfl
  | cons c cs ih =>
    simp only [List.map_cons, writeBack]
    change (if c.cls.enabled c.st then if c.cls.active (c.cls.update c.st dt) then _ else _ else _) = _
    split_ifs with h1 h2
    · cases solved with
      | nil => simp only [List.map_nil, List.map_cons, ← ih]
      | cons d ds => simp only [List.map_cons, ← ih]
    · simp only [List.map_cons, ← ih]; rfl
    · simp only [List.map_cons, ← ih]

variable {m : ℕ} (c : Fin m → Con n)

/-- the same states and velocities, for the renumbered constraints -/
def permFam (s : FGS c) : FGS fun i => permCon π (c i) := ⟨s.st, s.vel⟩

lemma fSweep_perm (A : Matrix (FDol c) (FDol c) ℝ) (dt : ℝ) (s : FGS c) :
    fSweep (fun i => permCon π (c i)) A dt (permFam c s) = permFam c (fSweep c A dt s) := by
  unfold fSweep
  generalize List.finRange m = l
  induction l generalizing s with
  | nil => rfl
  | cons i l ih =>
    rw [List.foldl_cons, List.foldl_cons, ← ih]
    rfl

lemma fLoop_perm (A : Matrix (FDol c) (FDol c) ℝ) (dt tol : ℝ) (r : ℕ) (b : Bool) (s : FGS c) :
    fLoop (fun i => permCon π (c i)) A dt tol r b (permFam c s) = permFam c (fLoop c A dt tol r b s) := by
  induction r generalizing b s with
  | zero => rfl
  | succ r ih =>
    simp only [fLoop, fSweep_perm, ih]
    by_cases hc : b = false ∧ (norm2 fun x => (fSweep c A dt s).vel x - s.vel x) < tol
    · rw [if_pos hc]; exact if_pos hc
    · rw [if_neg hc]; exact if_neg hc

lemma fAdd_perm (st : (i : Fin m) → (c i).cls.St) (g : Fin n → ℝ) :
    fAdd (fun i => permCon π (c i)) st (permVec π g) = permVec π (fAdd c st g) := by
  unfold fAdd
  generalize List.finRange m = l
  induction l generalizing g with
  | nil => rfl
  | cons i l ih =>
    rw [List.foldl_cons, List.foldl_cons, ← ih]
    rfl

lemma fJac_perm (st : (i : Fin m) → (c i).cls.St) : fJac (fun i => permCon π (c i)) st = permCols π (fJac c st) := rfl

lemma fRun_perm (Y mass : Matrix (Fin n) (Fin n) ℝ) (gvel gforce : Fin n → ℝ) (dt : ℝ) (maxiters : ℕ) (tol : ℝ) :
    fRun (fun i => permCon π (c i)) (permMat π Y) (permMat π mass) (permVec π gvel) (permVec π gforce) dt maxiters tol =
      permFam c (fRun c Y mass gvel gforce dt maxiters tol) := by
  have e1 : fAdm (fun i => permCon π (c i)) (permMat π Y) = fAdm c Y :=
    permCols_adm π Y (fJac c fun i => (c i).st) (fJac c fun i => (c i).st)
  have e2 : fInit (fun i => permCon π (c i)) (permMat π Y) (permMat π mass) (permVec π gvel) (permVec π gforce) dt =
      permFam c (fInit c Y mass gvel gforce dt) := by
    unfold fInit permFam
    congr 1
    have := fAdd_perm (π := π) c (fun i => (c i).st) gforce
    change permCols π (fJac c fun i => (c i).st) *ᵥ (permMat π Y *ᵥ (permMat π mass *ᵥ (dt⁻¹ • permVec π gvel) +
      fAdd (fun i => permCon π (c i)) (fun i => (c i).st) (permVec π gforce))) = _
    rw [this, ← permVec_smul, permMat_mulVec, ← permVec_add, permMat_mulVec, permCols_mulVec]
  unfold fRun
  rw [e2, e1]
  exact fLoop_perm c _ dt tol maxiters true _

lemma updateConstraints_perm (mass : Matrix (Fin n) (Fin n) ℝ) (gvel : Fin n → ℝ) (o : CtrlOut n) (cs : List (Con n)) {dt : ℝ}
    (hdt : 0 < dt) (maxiters : ℕ) (tol : ℝ) :
    updateConstraints (permMat π mass) (permVec π gvel) (permOut π o) (cs.map (permCon π)) dt maxiters tol =
      (updateConstraints mass gvel o cs dt maxiters tol).map fun r => (permVec π r.1, r.2.map (permCon π)) := by
  rw [updateConstraints_fam _ _ _ _ hdt, updateConstraints_fam _ _ _ _ hdt, except_map_ok, activeCons_perm, family_map]
  simp only [fOut, permOut]
  rw [fRun_perm, List.map_map]
  congr 1
  rw [← fAdd_perm]
  rfl

lemma constraints_shuffled {P P' : Plug n σ} (hP : Indifferent π P P') {w w' : MWorld n σ} (h : Reordered π w w') {dt : ℝ}
    (hdt : 0 < dt) : Alike (Reordered π) (constraints P dt w) (constraints P' dt w') := by
  have e : w'.cons.map (P'.look w') = (w.cons.map (P.look w)).map (permCon π) := by
    rw [h.cons, List.map_map, List.map_map]
    apply List.map_congr_left
    intro c _
    exact hP.look w w' c h
  simp only [constraints, e, h.mass, h.gvel, h.ctrl, updateConstraints_perm _ _ _ _ hdt]
  cases updateConstraints w.mass w.gvel w.ctrl (w.cons.map (P.look w)) dt with
  | error e => exact .error e
  | ok r =>
    exact .ok ⟨h.tree, rfl, h.dyn, rfl, h.viscosity, h.nleffects, rfl, writeBack_perm _ _ _, h.mem⟩

lemma advance_perm {l l' : MLink} (h : Renumbered π l l') (v : Fin n → ℝ) (dt : ℝ) :
    Renumbered π (advance v dt l) (advance (permVec π v) dt l') := by
  have hb := h.bound
  have hv : l'.att.integrate (part (permVec π v) l'.start) dt = l.att.integrate (part v l.start) dt := by
    rw [h.att]
    apply integrate_congr
    intro i hi
    have hd := h.dof i hi
    have hlt : l'.start + i < n := by rw [← hd]; exact Fin.isLt _
    have e : (⟨l'.start + i, hlt⟩ : Fin n) = π ⟨l.start + i, by omega⟩ := Fin.ext hd.symm
    simp only [part]
    rw [dif_pos hlt, dif_pos (by omega), e, permVec, Equiv.symm_apply_apply]
  have hn : (l.att.integrate (part v l.start) dt).ndof = l.att.ndof := by cases l.att <;> rfl
  refine ⟨⟨hv, h.bpose0, h.bpose1⟩, ?_, fun i hi => h.dof i ?_⟩
  · simp only [advance, hn]; exact hb
  · simpa only [advance, hn] using hi

lemma Spec.Shuffled.map {R R' : MLink → MLink → Prop} {F F' : Forest MLink Body} (h : Shuffled R F F') (f g : MLink → MLink)
    (hR : ∀ l l', R l l' → R' (f l) (g l')) : Shuffled R' (F.map f id) (F'.map g id) := by
  induction h with
  | nil => exact .nil
  | cons hl hc hs ih1 ih2 =>
    simp only [forest_map_append, Forest.map] at ih2 ⊢
    exact .cons (hR _ _ hl) ih1 ih2

lemma integrate_shuffled {w w' : MWorld n σ} (h : Reordered π w w') (dt : ℝ) :
    Alike (Reordered π) (Mech.integrate dt w) (Mech.integrate dt w') := by
  have e : integrateGvel w'.mass w'.ctrl.admittance w'.gvel w'.ctrl.gforce dt =
      (integrateGvel w.mass w.ctrl.admittance w.gvel w.ctrl.gforce dt).map (permVec π) := by
    simp only [integrateGvel, h.mass, h.ctrl, h.gvel, permOut]
    rw [← permVec_smul, permMat_mulVec, ← permVec_add, permMat_mulVec]
    split_ifs <;> rfl
  simp only [Mech.integrate, e]
  cases integrateGvel w.mass w.ctrl.admittance w.gvel w.ctrl.gforce dt with
  | error e => exact .error e
  | ok v =>
    exact .ok ⟨h.tree.map _ _ fun l l' hl => advance_perm hl v dt, rfl, h.dyn, h.mass, h.viscosity, h.nleffects, h.ctrl, h.cons, h.mem⟩

end step

/-- C94: the order in which the joints were attached does not matter.  If the tree of `w'` is that of `w` with the children of
every body in another order, then there is a renumbering `π` of the degrees of freedom such that, whatever the controllers and
constraints (provided they do the same up to renumbering), the two simulations make the same calls, raise the same exceptions,
and all along the two worlds are the same up to renumbering: same joint positions and velocities, same poses and twists of the
bodies, same matrices, forces and constraint forces. -/
theorem C94_run {n : ℕ} {σ : Type} {w w' : MWorld n σ} (hn : ndof w.tree = n) (ht : Shuffled SameJoint w.tree w'.tree)
    (hd : w.dyn = []) (hd' : w'.dyn = []) (hm : w'.mem = w.mem) :
    ∃ π : Equiv.Perm (Fin n), ∀ P P' : Plug n σ, Indifferent π P P' → w'.cons = w.cons.map (permCon π) →
      w'.ctrl = permOut π w.ctrl → ∀ (tl : List ℝ) (obs : Observers),
      SameRun (Reordered π) (simulate (engine P) w tl obs) (simulate (engine P') w' tl obs) := by
  obtain ⟨π, hπ⟩ := init_shuffled hn ht
  refine ⟨π, fun P P' hP hc ho tl obs => ?_⟩
  exact simulate_alike (R₀ := fun v v' => v = w ∧ v' = w') (fun v v' hv => by rw [hv.1, hv.2]; exact hπ hd hd' hm hc ho)
    (fun _ _ => dynamic_shuffled) (fun dt _ _ _ h => controllers_shuffled hP h dt)
    (fun dt _ _ hdt h => constraints_shuffled hP h hdt) (fun dt _ _ _ h => integrate_shuffled h dt) ⟨rfl, rfl⟩ tl obs

open Classical in
lemma weightUpdateE_closed {n : ℕ} (γ : ℝ) (up : Vec3) (bs : List (Body × BodyDyn n)) :
    weightUpdateE γ up bs =
      if ∀ x ∈ bs, weightNorm x.1.mass ≠ 0 → ishomogeneousmatrix x.2.pose then
        .ok ⟨((bs.filter fun x => weightNorm x.1.mass ≠ 0).map fun x =>
          x.2.jacᵀ *ᵥ (x.1.mass *ᵥ (iadjointBody x.2.pose *ᵥ gravityTwist γ up))).sum, 0⟩
      else .error .assertion := by
  have key : ∀ (l : List (Body × BodyDyn n)) (acc : Fin n → ℝ),
      (l.foldlM (init := acc) fun acc x => do
        let A ← assertHom x.2.pose (iadjointBody x.2.pose)
        return acc + x.2.jacᵀ *ᵥ (x.1.mass *ᵥ (A *ᵥ gravityTwist γ up)) : Except PyErr (Fin n → ℝ)) =
      if ∀ x ∈ l, ishomogeneousmatrix x.2.pose then
        .ok (acc + (l.map fun x => x.2.jacᵀ *ᵥ (x.1.mass *ᵥ (iadjointBody x.2.pose *ᵥ gravityTwist γ up))).sum)
      else .error .assertion := by
    intro l
    induction l with
    | nil => intro acc; simp [pure, Except.pure]
    | cons x l ih =>
      intro acc
      rw [List.foldlM_cons]
      simp only [List.forall_mem_cons, List.map_cons, List.sum_cons]
      by_cases hx : ishomogeneousmatrix x.2.pose
      · simp only [assertHom, hx, if_true, true_and, bind, Except.bind]
        refine (ih _).trans ?_
        simp only [add_assoc]
      · simp only [assertHom, hx, if_false, false_and, bind, Except.bind]
  have e : (∀ x ∈ bs.filter (fun x => weightNorm x.1.mass ≠ 0), ishomogeneousmatrix x.2.pose) ↔
      ∀ x ∈ bs, weightNorm x.1.mass ≠ 0 → ishomogeneousmatrix x.2.pose := by
    simp only [List.mem_filter, decide_eq_true_eq, and_imp]
  simp only [weightUpdateE, iadjoint_eq, key, zero_add, e]
  split_ifs <;> rfl

/-- C94: gravity does the same whatever the order of the joints. -/
theorem C94_weight {n : ℕ} {σ : Type} (π : Equiv.Perm (Fin n)) (γ : ℝ) (up : Vec3) :
    Indifferent π (weightPlug n σ γ up) (weightPlug n σ γ up) := by
  classical
  refine ⟨fun w w' dt h => ?_, fun _ _ _ _ => rfl⟩
  have hw : weightUpdateE γ up w'.dyn = (weightUpdateE γ up w.dyn).map (permVal π) := by
    rw [weightUpdateE_closed, weightUpdateE_closed]
    have e : (∀ x ∈ w'.dyn, weightNorm x.1.mass ≠ 0 → ishomogeneousmatrix x.2.pose) ↔
        ∀ x ∈ w.dyn, weightNorm x.1.mass ≠ 0 → ishomogeneousmatrix x.2.pose := by
      simp only [h.dyn.mem_iff, List.mem_map, forall_exists_index, and_imp, forall_apply_eq_imp_iff₂]
      rfl
    simp only [e]
    split_ifs
    · rw [except_map_ok, ((h.dyn.filter _).map _).sum_eq, List.filter_map, List.map_map]
      simp only [permVal, permMat_zero, permVec_list]
      rfl
    · rfl
  simp only [weightPlug, hw, h.mem]
  cases weightUpdateE γ up w.dyn <;> rfl

/-- the hypotheses of C94 are met by a body with two arms (a hinge carrying a slider, and a ball joint), attached in the two orders -/
example (A B C D : Body) (w : MWorld 11 Unit) (hd : w.dyn = [])
    (hw : w.tree = .cons ⟨.free 1 0, 0, 1, 1⟩ A
      (.cons ⟨.lin .Rx (fun _ => 1) (fun _ => 2), 0, 1, 1⟩ B (.cons ⟨.lin .Tz (fun _ => 0) (fun _ => 3), 0, 1, 1⟩ C .nil .nil)
        (.cons ⟨.lin .RzRyRx (fun _ => 4) (fun _ => 5), 0, mkH 1 ![1, 0, 0], 1⟩ D .nil .nil)) .nil)
    (hc : w.cons = []) (ho : w.ctrl = ⟨0, 0, 0⟩) :
    ∃ π : Equiv.Perm (Fin 11), ∀ (tl : List ℝ) (obs : Observers),
      SameRun (Reordered π) (simulate (engine (weightPlug 11 Unit (-9.81) ![0, 1, 0])) w tl obs)
        (simulate (engine (weightPlug 11 Unit (-9.81) ![0, 1, 0])) { w with tree := (.cons ⟨.free 1 0, 0, 1, 1⟩ A
          (.cons ⟨.lin .RzRyRx (fun _ => 4) (fun _ => 5), 0, mkH 1 ![1, 0, 0], 1⟩ D .nil
            (.cons ⟨.lin .Rx (fun _ => 1) (fun _ => 2), 0, 1, 1⟩ B (.cons ⟨.lin .Tz (fun _ => 0) (fun _ => 3), 0, 1, 1⟩ C .nil .nil)
              .nil)) .nil) } tl obs) := by
  have hs : ∀ l : MLink, SameJoint l l := fun l => ⟨rfl, rfl, rfl⟩
  obtain ⟨π, h⟩ := C94_run (w := w) (w' := { w with tree := (.cons ⟨.free 1 0, 0, 1, 1⟩ A
      (.cons ⟨.lin .RzRyRx (fun _ => 4) (fun _ => 5), 0, mkH 1 ![1, 0, 0], 1⟩ D .nil
        (.cons ⟨.lin .Rx (fun _ => 1) (fun _ => 2), 0, 1, 1⟩ B (.cons ⟨.lin .Tz (fun _ => 0) (fun _ => 3), 0, 1, 1⟩ C .nil .nil)
          .nil)) .nil) }) (by rw [hw]; rfl)
    (by
      rw [hw]
      refine Shuffled.cons (before := .nil) (hs _) ?_ .nil
      refine Shuffled.cons (before := .cons _ D .nil .nil) (hs _) ?_ ?_
      · exact Shuffled.cons (before := .nil) (hs _) .nil .nil
      · exact Shuffled.cons (before := .nil) (hs _) .nil .nil)
    hd hd rfl
  exact ⟨π, h _ _ (C94_weight π _ _) (by simp [hc]) (by simp only [ho]; rfl)⟩

end

end Arboris
