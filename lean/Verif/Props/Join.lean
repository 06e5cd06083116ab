import Verif.Spec.Join
import Verif.Props.Resume
import Verif.Props.Dynamics

/-!
# C89: mechanisms that are not connected do not influence each other
-/

namespace Arboris
open Matrix Spec Mech Build Sim

noncomputable section

variable {a b : ℕ}

/-! ### block algebra -/

lemma joinMat_add (X X' : Matrix (Fin a) (Fin a) ℝ) (Y Y' : Matrix (Fin b) (Fin b) ℝ) :
    joinMat X Y + joinMat X' Y' = joinMat (X + X') (Y + Y') := by
  ext i j
  simp only [joinMat, Matrix.add_apply, Matrix.submatrix_apply]
  rcases finSumFinEquiv.symm i with i | i <;> rcases finSumFinEquiv.symm j with j | j <;> simp
lemma joinMat_sub (X X' : Matrix (Fin a) (Fin a) ℝ) (Y Y' : Matrix (Fin b) (Fin b) ℝ) :
    joinMat X Y - joinMat X' Y' = joinMat (X - X') (Y - Y') := by
  ext i j
  simp only [joinMat, Matrix.sub_apply, Matrix.submatrix_apply]
  rcases finSumFinEquiv.symm i with i | i <;> rcases finSumFinEquiv.symm j with j | j <;> simp
lemma joinMat_smul (c : ℝ) (X : Matrix (Fin a) (Fin a) ℝ) (Y : Matrix (Fin b) (Fin b) ℝ) :
    c • joinMat X Y = joinMat (c • X) (c • Y) := by
  ext i j
  simp only [joinMat, Matrix.smul_apply, Matrix.submatrix_apply]
  rcases finSumFinEquiv.symm i with i | i <;> rcases finSumFinEquiv.symm j with j | j <;> simp
lemma joinMat_zero : joinMat (0 : Matrix (Fin a) (Fin a) ℝ) (0 : Matrix (Fin b) (Fin b) ℝ) = 0 := by
  ext i j
  simp only [joinMat, Matrix.zero_apply, Matrix.submatrix_apply]
  rcases finSumFinEquiv.symm i with i | i <;> rcases finSumFinEquiv.symm j with j | j <;> simp
lemma joinMat_one : joinMat (1 : Matrix (Fin a) (Fin a) ℝ) (1 : Matrix (Fin b) (Fin b) ℝ) = 1 := by
  rw [joinMat, Matrix.fromBlocks_one, Matrix.submatrix_one_equiv]
lemma joinMat_mul (X X' : Matrix (Fin a) (Fin a) ℝ) (Y Y' : Matrix (Fin b) (Fin b) ℝ) :
    joinMat X Y * joinMat X' Y' = joinMat (X * X') (Y * Y') := by
  simp [joinMat, Matrix.submatrix_mul_equiv, Matrix.fromBlocks_multiply]
lemma joinMat_det (X : Matrix (Fin a) (Fin a) ℝ) (Y : Matrix (Fin b) (Fin b) ℝ) :
    (joinMat X Y).det = X.det * Y.det := by
  simp [joinMat, Matrix.det_submatrix_equiv_self]
lemma joinMat_mulVec (X : Matrix (Fin a) (Fin a) ℝ) (Y : Matrix (Fin b) (Fin b) ℝ) (u : Fin a → ℝ) (v : Fin b → ℝ) :
    joinMat X Y *ᵥ joinVec u v = joinVec (X *ᵥ u) (Y *ᵥ v) := by
  have h : joinVec u v = Sum.elim u v ∘ finSumFinEquiv.symm := rfl
  rw [joinMat, h, Matrix.submatrix_mulVec_equiv]
  funext i
  simp [joinVec, Matrix.fromBlocks_mulVec, Function.comp_def]
lemma joinVec_add (u u' : Fin a → ℝ) (v v' : Fin b → ℝ) : joinVec u v + joinVec u' v' = joinVec (u + u') (v + v') := by
  funext i
  simp only [joinVec, Pi.add_apply]
  rcases finSumFinEquiv.symm i with i | i <;> simp
lemma joinVec_smul (c : ℝ) (u : Fin a → ℝ) (v : Fin b → ℝ) : c • joinVec u v = joinVec (c • u) (c • v) := by
  funext i
  simp only [joinVec, Pi.smul_apply]
  rcases finSumFinEquiv.symm i with i | i <;> simp
lemma joinVec_zero : joinVec (0 : Fin a → ℝ) (0 : Fin b → ℝ) = 0 := by
  funext i
  simp only [joinVec, Pi.zero_apply]
  rcases finSumFinEquiv.symm i with i | i <;> simp

lemma colsL_mul (A : Mat6) (J : Matrix (Fin 6) (Fin a) ℝ) : A * colsL (b := b) J = colsL (A * J) := by
  ext i c
  simp only [colsL, Matrix.mul_apply, Matrix.of_apply]
  rcases finSumFinEquiv.symm c with c | c <;> simp [Matrix.mul_apply]
lemma colsR_mul (A : Mat6) (J : Matrix (Fin 6) (Fin b) ℝ) : A * colsR (a := a) J = colsR (A * J) := by
  ext i c
  simp only [colsR, Matrix.mul_apply, Matrix.of_apply]
  rcases finSumFinEquiv.symm c with c | c <;> simp [Matrix.mul_apply]
lemma colsL_add (J K : Matrix (Fin 6) (Fin a) ℝ) : colsL (b := b) J + colsL K = colsL (J + K) := by
  ext i c
  simp only [colsL, Matrix.add_apply, Matrix.of_apply]
  rcases finSumFinEquiv.symm c with c | c <;> simp
lemma colsR_add (J K : Matrix (Fin 6) (Fin b) ℝ) : colsR (a := a) J + colsR K = colsR (J + K) := by
  ext i c
  simp only [colsR, Matrix.add_apply, Matrix.of_apply]
  rcases finSumFinEquiv.symm c with c | c <;> simp
lemma colsL_zero : colsL (b := b) (0 : Matrix (Fin 6) (Fin a) ℝ) = 0 := by
  ext i c
  simp only [colsL, Matrix.zero_apply, Matrix.of_apply]
  rcases finSumFinEquiv.symm c with c | c <;> simp
lemma colsR_zero : colsR (a := a) (0 : Matrix (Fin 6) (Fin b) ℝ) = 0 := by
  ext i c
  simp only [colsR, Matrix.zero_apply, Matrix.of_apply]
  rcases finSumFinEquiv.symm c with c | c <;> simp
lemma colsL_quad (J K : Matrix (Fin 6) (Fin a) ℝ) : (colsL (b := b) J)ᵀ * colsL K = joinMat (Jᵀ * K) 0 := by
  ext i j
  simp only [colsL, joinMat, Matrix.mul_apply, Matrix.transpose_apply, Matrix.of_apply, Matrix.submatrix_apply]
  rcases finSumFinEquiv.symm i with i | i <;> rcases finSumFinEquiv.symm j with j | j <;> simp [Matrix.mul_apply]
lemma colsR_quad (J K : Matrix (Fin 6) (Fin b) ℝ) : (colsR (a := a) J)ᵀ * colsR K = joinMat 0 (Jᵀ * K) := by
  ext i j
  simp only [colsR, joinMat, Matrix.mul_apply, Matrix.transpose_apply, Matrix.of_apply, Matrix.submatrix_apply]
  rcases finSumFinEquiv.symm i with i | i <;> rcases finSumFinEquiv.symm j with j | j <;> simp [Matrix.mul_apply]

lemma colsL_addCols (J : Matrix (Fin 6) (Fin a) ℝ) (s k : ℕ) (B : Matrix (Fin 6) (Fin k) ℝ) (h : s + k ≤ a) :
    addCols (colsL (b := b) J) s k B = colsL (addCols J s k B) := by
  ext i c
  obtain ⟨c, rfl⟩ := finSumFinEquiv.surjective c
  rcases c with c | c
  · simp [addCols, colsL]
  · have : ¬ (s ≤ a + c.val ∧ a + c.val < s + k) := by omega
    simp [addCols, colsL, this]
lemma colsR_addCols (J : Matrix (Fin 6) (Fin b) ℝ) (s k : ℕ) (B : Matrix (Fin 6) (Fin k) ℝ) :
    addCols (colsR (a := a) J) (a + s) k B = colsR (addCols J s k B) := by
  ext i c
  obtain ⟨c, rfl⟩ := finSumFinEquiv.surjective c
  rcases c with c | c
  · have : ¬ (a + s ≤ c.val ∧ c.val < a + s + k) := by have := c.isLt; omega
    simp [addCols, colsR, this]
  · have e : (a + s ≤ a + c.val ∧ a + c.val < a + s + k) ↔ (s ≤ c.val ∧ c.val < s + k) := by omega
    simp only [addCols, colsR, Matrix.of_apply, finSumFinEquiv_apply_right, Fin.val_natAdd, finSumFinEquiv_symm_apply_natAdd, Sum.elim_inr]
    by_cases h : s ≤ c.val ∧ c.val < s + k
    · rw [dif_pos (e.mpr h), dif_pos h]
      congr 3
      omega
    · rw [dif_neg (fun h' => h (e.mp h')), dif_neg h]

/-! ### bodies -/

lemma dynL_step (s : BodyDyn a) (l : Link) (h : l.start + l.k ≤ a) : dynStep (dynL (b := b) s) l = dynL (dynStep s l) := by
  simp only [dynStep, dynL, colsL_mul, colsL_add, colsL_addCols _ _ _ _ h]
lemma dynR_step (s : BodyDyn b) (l : Link) :
    dynStep (dynR (a := a) s) { l with start := a + l.start } = dynR (dynStep s l) := by
  simp only [dynStep, dynR, colsR_mul, colsR_add, colsR_addCols]

lemma updateDynamic_L (F : Forest Link Body) (s : BodyDyn a) (h : ∀ l ∈ F.links, l.start + l.k ≤ a) :
    updateDynamic (dynL (b := b) s) F = (updateDynamic s F).map fun x => (x.1, dynL x.2) := by
  induction F generalizing s with
  | nil => rfl
  | cons l c ch sib ih1 ih2 =>
    simp only [Forest.links, List.cons_append, List.mem_cons, List.mem_append] at h
    simp only [updateDynamic, dynL_step s l (h l (Or.inl rfl)), ih1 _ fun x hx => h x (Or.inr (Or.inl hx)),
      ih2 _ fun x hx => h x (Or.inr (Or.inr hx)), List.map_cons, List.map_append]
lemma updateDynamic_R (F : Forest Link Body) (s : BodyDyn b) :
    updateDynamic (dynR (a := a) s) (F.map (fun l => { l with start := a + l.start }) id) =
      (updateDynamic s F).map fun x => (x.1, dynR x.2) := by
  induction F generalizing s with
  | nil => rfl
  | cons l c ch sib ih1 ih2 =>
    simp only [updateDynamic, Forest.map, dynR_step s l, ih1, ih2, List.map_cons, List.map_append, id]
lemma updateDynamic_append {n : ℕ} (F G : Forest Link Body) (s : BodyDyn n) :
    updateDynamic s (F.append G) = updateDynamic s F ++ updateDynamic s G := by
  induction F with
  | nil => rfl
  | cons l c ch sib _ ih => simp only [Forest.append, updateDynamic, ih, List.cons_append, List.append_assoc]

lemma worldDynamic_join (F G : Forest Link Body) (h : ∀ l ∈ F.links, l.start + l.k ≤ a) :
    worldDynamic (a + b) (F.append (G.map (fun l => { l with start := a + l.start }) id)) =
      (worldDynamic a F).map (fun x => (x.1, dynL x.2)) ++ (worldDynamic b G).map fun x => (x.1, dynR x.2) := by
  have h1 : groundDyn (a + b) = dynL (b := b) (groundDyn a) := by simp [groundDyn, dynL, colsL_zero]
  have h2 : groundDyn (a + b) = dynR (a := a) (groundDyn b) := by simp [groundDyn, dynR, colsR_zero]
  rw [worldDynamic, updateDynamic_append]
  congr 1
  · rw [h1, updateDynamic_L F _ h]; rfl
  · rw [h2, updateDynamic_R]; rfl

lemma joinMat_sum {α β : Type} (l : List α) (m : List β) (f : α → Matrix (Fin a) (Fin a) ℝ) (g : β → Matrix (Fin b) (Fin b) ℝ) :
    (l.map fun x => joinMat (f x) (0 : Matrix (Fin b) (Fin b) ℝ)).sum + (m.map fun x => joinMat (0 : Matrix (Fin a) (Fin a) ℝ) (g x)).sum =
      joinMat (l.map f).sum (m.map g).sum := by
  have h1 : (l.map fun x => joinMat (f x) (0 : Matrix (Fin b) (Fin b) ℝ)).sum = joinMat (l.map f).sum 0 := by
    induction l with
    | nil => simp [joinMat_zero]
    | cons x l ih => simp [ih, joinMat_add]
  have h2 : (m.map fun x => joinMat (0 : Matrix (Fin a) (Fin a) ℝ) (g x)).sum = joinMat 0 (m.map g).sum := by
    induction m with
    | nil => simp [joinMat_zero]
    | cons x m ih => simp [ih, joinMat_add]
  rw [h1, h2, joinMat_add, add_zero, zero_add]
lemma joinVec_sum {α β : Type} (l : List α) (m : List β) (f : α → Fin a → ℝ) (g : β → Fin b → ℝ) :
    (l.map fun x => joinVec (f x) (0 : Fin b → ℝ)).sum + (m.map fun x => joinVec (0 : Fin a → ℝ) (g x)).sum =
      joinVec (l.map f).sum (m.map g).sum := by
  have h1 : (l.map fun x => joinVec (f x) (0 : Fin b → ℝ)).sum = joinVec (l.map f).sum 0 := by
    induction l with
    | nil => simp [joinVec_zero]
    | cons x l ih => simp [ih, joinVec_add]
  have h2 : (m.map fun x => joinVec (0 : Fin a → ℝ) (g x)).sum = joinVec 0 (m.map g).sum := by
    induction m with
    | nil => simp [joinVec_zero]
    | cons x m ih => simp [ih, joinVec_add]
  rw [h1, h2, joinVec_add, add_zero, zero_add]

/-- C89: the mass, viscosity and non-linear matrices of two mechanisms side by side are block-diagonal, each block being
the matrix of one mechanism alone. -/
theorem C89_blocks (F G : Forest Link Body) (h : ∀ l ∈ F.links, l.start + l.k ≤ a) :
    let D := worldDynamic (a + b) (F.append (G.map (fun l => { l with start := a + l.start }) id))
    worldMass D = joinMat (worldMass (worldDynamic a F)) (worldMass (worldDynamic b G)) ∧
    worldViscosity D = joinMat (worldViscosity (worldDynamic a F)) (worldViscosity (worldDynamic b G)) ∧
    worldNleffects D = joinMat (worldNleffects (worldDynamic a F)) (worldNleffects (worldDynamic b G)) := by
  intro D
  have hD : D = _ := worldDynamic_join (b := b) F G h
  rw [hD]
  refine ⟨?_, ?_, ?_⟩
  · simp only [worldMass_eq, List.map_append, List.map_map, List.sum_append, Function.comp_def, dynL, dynR]
    simp only [Matrix.mul_assoc, colsL_mul, colsR_mul, colsL_quad, colsR_quad]
    rw [joinMat_sum]
  · simp only [worldViscosity_eq, List.map_append, List.map_map, List.sum_append, Function.comp_def, dynL, dynR]
    simp only [Matrix.mul_assoc, colsL_mul, colsR_mul, colsL_quad, colsR_quad]
    rw [joinMat_sum]
  · simp only [worldNleffects_eq, List.map_append, List.map_map, List.sum_append, Function.comp_def, dynL, dynR]
    simp only [colsL_mul, colsR_mul, colsL_add, colsR_add, colsL_quad, colsR_quad]
    rw [joinMat_sum]


/-! ### a step -/

/-- whether `update_dynamic` raises at a link does not depend on the numbers of its dofs, nor on the state of the parent -/
lemma dynStepE_any {n m : ℕ} {l : Link} {s d : BodyDyn n} (h : dynStepE s l = .ok d) (s' : BodyDyn m) (t : ℕ) :
    dynStepE s' { l with start := t } = .ok (dynStep s' { l with start := t }) := by
  have key : ∃ d', dynStepE s' { l with start := t } = .ok d' := by
    unfold dynStepE at h ⊢
    cases h1 : inv l.bpose1 with
    | error e => simp [h1, bind, Except.bind] at h
    | ok a1 =>
    cases h2 : iadjoint (l.bpose0 * (l.joint.pose * a1)) with
    | error e => simp [h1, h2, bind, Except.bind] at h
    | ok a2 =>
    cases h3 : adjoint l.bpose1 with
    | error e => simp [h1, h2, h3, bind, Except.bind] at h
    | ok a3 =>
    cases h4 : inv l.bpose0 with
    | error e => simp [h1, h2, h3, h4, bind, Except.bind] at h
    | ok a4 =>
    cases h5 : adjoint a4 with
    | error e => simp [h1, h2, h3, h4, h5, bind, Except.bind] at h
    | ok a5 =>
    cases h6 : adjoint l.joint.ipose with
    | error e => simp [h1, h2, h3, h4, h5, h6, bind, Except.bind] at h
    | ok a6 =>
    simp only [h1, h2, h3, h4, h5, h6, bind, Except.bind]
    exact ⟨_, rfl⟩
  obtain ⟨d', h'⟩ := key
  rw [h', dynStepE_eq h']

lemma updateDynamicE_any {n m : ℕ} {F : Forest Link Body} {s : BodyDyn n} {d : List (Body × BodyDyn n)}
    (h : updateDynamicE s F = .ok d) (s' : BodyDyn m) (f : ℕ → ℕ) :
    updateDynamicE s' (F.map (fun l => { l with start := f l.start }) id) =
      .ok (updateDynamic s' (F.map (fun l => { l with start := f l.start }) id)) := by
  induction F generalizing s d s' with
  | nil => rfl
  | cons l b ch sib ih1 ih2 =>
    unfold updateDynamicE at h
    cases h1 : dynStepE s l with
    | error e => simp [h1, bind, Except.bind] at h
    | ok a1 =>
    cases h2 : updateDynamicE a1 ch with
    | error e => simp [h1, h2, bind, Except.bind] at h
    | ok a2 =>
    cases h3 : updateDynamicE s sib with
    | error e => simp [h1, h2, h3, bind, Except.bind] at h
    | ok a3 =>
    simp only [Forest.map, updateDynamicE, updateDynamic, dynStepE_any h1 s' (f l.start), ih1 h2, ih2 h3, bind, Except.bind, id]
    rfl

lemma updateDynamicE_append {n : ℕ} {F G : Forest Link Body} {s : BodyDyn n} {d e : List (Body × BodyDyn n)}
    (h : updateDynamicE s F = .ok d) (h' : updateDynamicE s G = .ok e) : updateDynamicE s (F.append G) = .ok (d ++ e) := by
  induction F generalizing d with
  | nil => rw [← Except.ok.inj h]; exact h'
  | cons l b ch sib _ ih =>
    unfold updateDynamicE at h
    cases h1 : dynStepE s l with
    | error e => simp [h1, bind, Except.bind] at h
    | ok a1 =>
    cases h2 : updateDynamicE a1 ch with
    | error e => simp [h1, h2, bind, Except.bind] at h
    | ok a2 =>
    cases h3 : updateDynamicE s sib with
    | error e => simp [h1, h2, h3, bind, Except.bind] at h
    | ok a3 =>
    simp only [h1, h2, h3, bind, Except.bind] at h
    rw [← Except.ok.inj h]
    simp only [Forest.append, updateDynamicE, h1, h2, ih h3, bind, Except.bind]
    simp only [pure, Except.pure, List.cons_append, List.append_assoc]

lemma forest_map_append {L B L' B' : Type} (f : L → L') (g : B → B') (F G : Forest L B) :
    (F.append G).map f g = (F.map f g).append (G.map f g) := by
  induction F with
  | nil => rfl
  | cons l b ch sib _ ih => simp only [Forest.append, Forest.map, ih]
lemma forest_map_map {L B L' B' L'' B'' : Type} (f : L → L') (g : B → B') (f' : L' → L'') (g' : B' → B'') (F : Forest L B) :
    (F.map f g).map f' g' = F.map (f' ∘ f) (g' ∘ g) := by
  induction F with
  | nil => rfl
  | cons l b ch sib ih1 ih2 => simp only [Forest.map, ih1, ih2, Function.comp]
lemma forest_map_congr {L B L' : Type} {f f' : L → L'} (F : Forest L B) (h : ∀ l ∈ F.links, f l = f' l) :
    F.map f id = F.map f' id := by
  induction F with
  | nil => rfl
  | cons l b ch sib ih1 ih2 =>
    simp only [Forest.links, List.cons_append, List.mem_cons, List.mem_append] at h
    simp only [Forest.map, h l (Or.inl rfl), ih1 fun x hx => h x (Or.inr (Or.inl hx)), ih2 fun x hx => h x (Or.inr (Or.inr hx))]
lemma forest_map_self {L B : Type} (F : Forest L B) : F.map (fun l => l) id = F := by
  induction F with
  | nil => rfl
  | cons l b ch sib ih1 ih2 => simp only [Forest.map, ih1, ih2, id]
lemma forest_links_map {L B L' : Type} (f : L → L') (F : Forest L B) : (F.map f id).links = F.links.map f := by
  induction F with
  | nil => rfl
  | cons l b ch sib ih1 ih2 => simp only [Forest.map, Forest.links, List.map_append, List.map_cons, ih1, ih2, List.cons_append]
lemma forest_links_append {L B : Type} (F G : Forest L B) : (F.append G).links = F.links ++ G.links := by
  induction F with
  | nil => rfl
  | cons l b ch sib _ ih => simp only [Forest.append, Forest.links, ih, List.cons_append, List.append_assoc]

lemma dynamic_join {σ τ : Type} {w₁ a₁ : MWorld a σ} {w₂ a₂ : MWorld b τ} {w : MWorld (a + b) (σ × τ)} (hw : Joined w₁ w₂ w)
    (hb : ∀ l ∈ w₁.tree.links, l.start + l.att.ndof ≤ a) (h₁ : dynamic w₁ = .ok a₁) (h₂ : dynamic w₂ = .ok a₂) :
    ∃ c, dynamic w = .ok c ∧ JoinedDyn a₁ a₂ c ∧ a₁.tree = w₁.tree ∧ a₂.tree = w₂.tree := by
  unfold dynamic at h₁ h₂
  split at h₁
  · cases h₁
  rename_i d₁ hd₁
  split at h₂
  · cases h₂
  rename_i d₂ hd₂
  obtain rfl := Except.ok.inj h₁
  obtain rfl := Except.ok.inj h₂
  have e : w.tree.map MLink.link id = (w₁.tree.map MLink.link id).append
      ((w₂.tree.map MLink.link id).map (fun l => { l with start := a + l.start }) id) := by
    rw [hw.tree, forest_map_append, forest_map_map, forest_map_map]
    rfl
  have f1 := updateDynamicE_any hd₁ (groundDyn (a + b)) id
  rw [show (w₁.tree.map MLink.link id).map (fun l => { l with start := id l.start }) id = w₁.tree.map MLink.link id from
    forest_map_self _] at f1
  have f2 := updateDynamicE_any hd₂ (groundDyn (a + b)) (fun s => a + s)
  have f3 := updateDynamicE_append f1 f2
  rw [← e, ← updateDynamic_append, ← e] at f3
  have hbl : ∀ l ∈ (w₁.tree.map MLink.link id).links, l.start + l.k ≤ a := by
    intro l hl
    rw [forest_links_map] at hl
    obtain ⟨x, hx, rfl⟩ := List.mem_map.mp hl
    exact hb x hx
  have hdyn := worldDynamic_join (b := b) (w₁.tree.map MLink.link id) (w₂.tree.map MLink.link id) hbl
  obtain ⟨g1, g2, g3⟩ := C89_blocks (b := b) (w₁.tree.map MLink.link id) (w₂.tree.map MLink.link id) hbl
  rw [← e] at hdyn g1 g2 g3
  obtain rfl := updateDynamicE_eq hd₁
  obtain rfl := updateDynamicE_eq hd₂
  unfold dynamic
  simp only [f3]
  refine ⟨_, rfl, ⟨⟨hw.tree, hw.gvel, hw.cons, hw.mem⟩, ?_, g1, g2, g3⟩, trivial, trivial⟩
  exact hdyn

lemma controllers_join {σ τ : Type} {P₁ : Plug a σ} {P₂ : Plug b τ} {P : Plug (a + b) (σ × τ)} (hP : Separate P₁ P₂ P) {dt : ℝ}
    {w₁ a₁ : MWorld a σ} {w₂ a₂ : MWorld b τ} {w : MWorld (a + b) (σ × τ)} (hw : JoinedDyn w₁ w₂ w)
    (h₁ : controllers P₁ dt w₁ = .ok a₁) (h₂ : controllers P₂ dt w₂ = .ok a₂) :
    ∃ c, controllers P dt w = .ok c ∧ JoinedDyn a₁ a₂ c ∧ c.ctrl.gforce = joinVec a₁.ctrl.gforce a₂.ctrl.gforce ∧
      c.ctrl.admittance = joinMat a₁.ctrl.admittance a₂.ctrl.admittance ∧ a₁.tree = w₁.tree ∧ a₂.tree = w₂.tree ∧
      a₁.cons = w₁.cons ∧ a₂.cons = w₂.cons := by
  unfold controllers at h₁ h₂
  split at h₁
  · cases h₁
  rename_i m₁ v₁ hv₁
  split at h₁
  · cases h₁
  rename_i o₁ ho₁
  split at h₂
  · cases h₂
  rename_i m₂ v₂ hv₂
  split at h₂
  · cases h₂
  rename_i o₂ ho₂
  obtain rfl := Except.ok.inj h₁
  obtain rfl := Except.ok.inj h₂
  obtain ⟨hdt, hdet₁, hg₁, hi₁, ha₁⟩ := (C33_sum _ _ _ _ _ _).mp ho₁
  obtain ⟨-, hdet₂, hg₂, hi₂, ha₂⟩ := (C33_sum _ _ _ _ _ _).mp ho₂
  obtain ⟨v, hv, hvg, hvi⟩ := hP w₁ w₂ w dt m₁ m₂ v₁ v₂ hw hv₁ hv₂
  have ho : updateControllers w.mass w.viscosity w.nleffects dt v =
      .ok ⟨joinVec o₁.gforce o₂.gforce, joinMat o₁.impedance o₂.impedance, joinMat o₁.admittance o₂.admittance⟩ := by
    refine (C33_sum _ _ _ _ _ _).mpr ⟨hdt, ?_, ?_, ?_, ?_⟩
    · simp only [joinMat_det]
      exact mul_ne_zero hdet₁ hdet₂
    · rw [hvg, hg₁, hg₂]
    · simp only
      rw [hvi, hi₁, hi₂, hw.mass, hw.viscosity, hw.nleffects, joinMat_smul, joinMat_add, joinMat_add, joinMat_sub]
    · simp only [joinMat_mul, ha₁, ha₂, joinMat_one]
  unfold controllers
  simp only [hv, ho]
  exact ⟨_, rfl, ⟨⟨hw.tree, hw.gvel, hw.cons, rfl⟩, hw.bodies, hw.mass, hw.viscosity, hw.nleffects⟩, rfl, rfl, trivial, trivial, trivial, trivial⟩

lemma constraints_none {n : ℕ} {σ : Type} (P : Plug n σ) {dt : ℝ} (hdt : 0 < dt) (w : MWorld n σ) (h : w.cons = []) :
    constraints P dt w = .ok w := by
  obtain ⟨tree, gvel, dyn, mass, visc, nle, ctrl, cons, mem⟩ := w
  simp only at h
  subst h
  simp only [constraints, updateConstraints, if_pos hdt, activeCons, List.map_nil, List.filterMap_nil, addGforces, writeBack]
  rfl

lemma part_left (u : Fin a → ℝ) (v : Fin b → ℝ) {s i : ℕ} (h : s + i < a) : part (joinVec u v) s i = part u s i := by
  simp only [part, h, dif_pos, show s + i < a + b by omega]
  have : (⟨s + i, by omega⟩ : Fin (a + b)) = finSumFinEquiv (Sum.inl ⟨s + i, h⟩) := by
    rw [finSumFinEquiv_apply_left]; rfl
  rw [this, joinVec, Equiv.symm_apply_apply]
  rfl
lemma part_right (u : Fin a → ℝ) (v : Fin b → ℝ) (s i : ℕ) : part (joinVec u v) (a + s) i = part v s i := by
  simp only [part]
  by_cases h : s + i < b
  · rw [dif_pos (by omega), dif_pos h]
    have : (⟨a + s + i, by omega⟩ : Fin (a + b)) = finSumFinEquiv (Sum.inr ⟨s + i, h⟩) := by
      rw [finSumFinEquiv_apply_right]
      apply Fin.ext
      simp [add_assoc]
    rw [this, joinVec, Equiv.symm_apply_apply]
    rfl
  · rw [dif_neg (by omega), dif_neg h]

lemma integrate_congr (g g' : ℕ → ℝ) (dt : ℝ) (j : JAttr) (h : ∀ i, i < j.ndof → g i = g' i) :
    j.integrate g dt = j.integrate g' dt := by
  cases j with
  | lin k q dq =>
    have : (fun i : Fin k.ndof => g i.val) = fun i => g' i.val := funext fun i => h i.val i.isLt
    simp only [JAttr.integrate, this]
  | free H T =>
    have : (fun i : Fin 6 => g i.val) = fun i => g' i.val := funext fun i => h i.val i.isLt
    simp only [JAttr.integrate, this]
  | fixed => rfl

lemma integrate_join {σ τ : Type} {dt : ℝ} {w₁ a₁ : MWorld a σ} {w₂ a₂ : MWorld b τ} {w : MWorld (a + b) (σ × τ)}
    (hw : JoinedDyn w₁ w₂ w) (hg : w.ctrl.gforce = joinVec w₁.ctrl.gforce w₂.ctrl.gforce)
    (ha : w.ctrl.admittance = joinMat w₁.ctrl.admittance w₂.ctrl.admittance)
    (hb : ∀ l ∈ w₁.tree.links, l.start + l.att.ndof ≤ a)
    (h₁ : Mech.integrate dt w₁ = .ok a₁) (h₂ : Mech.integrate dt w₂ = .ok a₂) :
    ∃ c, Mech.integrate dt w = .ok c ∧ Joined a₁ a₂ c ∧ (∀ l ∈ a₁.tree.links, l.start + l.att.ndof ≤ a) ∧ 
      a₁.cons = w₁.cons ∧ a₂.cons = w₂.cons := by
  by_cases hdt : 0 < dt
  swap
  · simp [Mech.integrate, integrateGvel, hdt] at h₁
  simp only [Mech.integrate, integrateGvel, if_pos hdt] at h₁ h₂ ⊢
  obtain rfl := Except.ok.inj h₁
  obtain rfl := Except.ok.inj h₂
  have hv : w.ctrl.admittance *ᵥ (w.mass *ᵥ (dt⁻¹ • w.gvel) + w.ctrl.gforce) =
      joinVec (w₁.ctrl.admittance *ᵥ (w₁.mass *ᵥ (dt⁻¹ • w₁.gvel) + w₁.ctrl.gforce))
        (w₂.ctrl.admittance *ᵥ (w₂.mass *ᵥ (dt⁻¹ • w₂.gvel) + w₂.ctrl.gforce)) := by
    rw [ha, hg, hw.mass, hw.gvel, joinVec_smul, joinMat_mulVec, joinVec_add, joinMat_mulVec]
  refine ⟨_, rfl, ⟨?_, hv, hw.cons, hw.mem⟩, ?_, rfl, rfl⟩
  · simp only
    rw [hv, hw.tree, forest_map_append, forest_map_map, forest_map_map]
    congr 1
    · apply forest_map_congr
      intro l hl
      have := hb l hl
      simp only [advance]
      rw [integrate_congr _ _ _ _ fun i hi => part_left _ _ (by omega)]
    · apply forest_map_congr
      intro l hl
      simp only [advance, Function.comp]
      rw [integrate_congr _ _ _ _ fun i hi => part_right _ _ _ _]
  · intro l hl
    simp only [forest_links_map] at hl
    obtain ⟨x, hx, rfl⟩ := List.mem_map.mp hl
    have := hb x hx
    simp only [advance]
    rw [show ∀ (j : JAttr) g, (j.integrate g dt).ndof = j.ndof from fun j g => by cases j <;> rfl]
    exact this

/-! ### `init` -/

lemma number_same (s : ℕ) {F G : Forest MLink Body} (h : ForestRel (fun l l' => l' = { l with start := l'.start }) F G) :
    number s G = number s F := by
  induction h generalizing s with
  | nil => rfl
  | cons hl _ _ ih1 ih2 =>
    rename_i l l' _ _ _ _ _ _ _
    have e : l'.att = l.att := by rw [hl]
    simp only [number]
    rw [e, ih1, ih2, hl]

lemma number_append (s : ℕ) (F G : Forest MLink Body) :
    (number s (F.append G)).1 = (number s F).1.append (number (s + ndof F) G).1 := by
  induction F generalizing s with
  | nil => simp [Forest.append, number, ndof, Forest.links]
  | cons l c ch sib _ ih =>
    simp only [Forest.append, number, ih, (number_spec (s + l.att.ndof) ch).2.1]
    simp only [ndof, Forest.links, List.cons_append, List.map_cons, List.map_append, List.sum_cons, List.sum_append, add_assoc]

lemma number_shift (k s : ℕ) (G : Forest MLink Body) :
    (number (k + s) G).1 = (number s G).1.map (fun l => { l with start := k + l.start }) id ∧
      (number (k + s) G).2 = k + (number s G).2 := by
  induction G generalizing s with
  | nil => exact ⟨rfl, rfl⟩
  | cons l c ch sib ih1 ih2 =>
    simp only [number, Forest.map, add_assoc, ih1, ih2, id]
    exact ⟨trivial, trivial⟩

lemma init_join {σ τ : Type} {w₁ a₁ : MWorld a σ} {w₂ a₂ : MWorld b τ} {w : MWorld (a + b) (σ × τ)} (hw : SideBySide w₁ w₂ w)
    (ha : ndof w₁.tree = a) (hb : ndof w₂.tree = b) (h₁ : Mech.init w₁ = .ok a₁) (h₂ : Mech.init w₂ = .ok a₂) :
    ∃ c, Mech.init w = .ok c ∧ Joined a₁ a₂ c ∧ (∀ l ∈ a₁.tree.links, l.start + l.att.ndof ≤ a) ∧
      a₁.cons = w₁.cons ∧ a₂.cons = w₂.cons := by
  obtain ⟨_, g1, s1⟩ := init_started ha
  obtain rfl := Except.ok.inj (g1.symm.trans h₁)
  obtain ⟨_, g2, s2⟩ := init_started hb
  obtain rfl := Except.ok.inj (g2.symm.trans h₂)
  have ht : (number 0 w.tree).1 = (number 0 w₁.tree).1.append
      ((number 0 w₂.tree).1.map (fun l => { l with start := a + l.start }) id) := by
    rw [number_same 0 hw.tree, number_append, ha, Nat.zero_add, ← (number_shift a 0 w₂.tree).1, Nat.add_zero]
  obtain rfl := Except.ok.inj h₁
  obtain rfl := Except.ok.inj h₂
  have hbd : ∀ l ∈ (number 0 w₁.tree).1.links, l.start + l.att.ndof ≤ a := fun l hl => ((hasVel_iff _ l).mp (s1.vel l hl)).1
  refine ⟨_, rfl, ⟨ht, ?_, hw.cons, hw.mem⟩, hbd, rfl, rfl⟩
  apply gather_hasVel (number_spec 0 w.tree).1
  · intro l hl
    rw [ht, forest_links_append, forest_links_map] at hl
    rcases List.mem_append.mp hl with hl | hl
    · obtain ⟨e1, e2⟩ := (hasVel_iff _ l).mp (s1.vel l hl)
      refine (hasVel_iff _ l).mpr ⟨by omega, fun i hi h => ?_⟩
      rw [← e2 i hi (by omega)]
      have := part_left (gather (number 0 w₁.tree).1.links : Fin a → ℝ) (gather (number 0 w₂.tree).1.links : Fin b → ℝ)
        (s := l.start) (i := i) (by omega)
      simp only [part] at this
      rw [dif_pos (by omega), dif_pos (by omega)] at this
      exact this
    · obtain ⟨x, hx, rfl⟩ := List.mem_map.mp hl
      obtain ⟨e1, e2⟩ := (hasVel_iff _ x).mp (s2.vel x hx)
      refine (hasVel_iff _ _).mpr ⟨by simp only; omega, fun i hi h => ?_⟩
      simp only at hi h ⊢
      rw [← e2 i hi (by omega)]
      have := part_right (gather (number 0 w₁.tree).1.links : Fin a → ℝ) (gather (number 0 w₂.tree).1.links : Fin b → ℝ)
        x.start i
      simp only [part] at this
      rw [dif_pos (by omega), dif_pos (by omega)] at this
      exact this
  · have h3 := (number_spec 0 w.tree).2.2
    rw [ndof] at h3
    rw [h3]
    have : ndof w.tree = ndof (number 0 w.tree).1 := (number_spec 0 w.tree).2.2.symm
    rw [this, ht, ndof, forest_links_append, forest_links_map, List.map_append, List.sum_append, List.map_map]
    have e1 := (number_spec 0 w₁.tree).2.2
    have e2 := (number_spec 0 w₂.tree).2.2
    rw [ndof] at e1 e2
    rw [e1, ha]
    congr 1
    exact e2.trans hb

/-! ### runs -/

/-- what is shown at the steps of the three runs -/
inductive StepsTogether {σ τ : Type} :
    List (ℝ × ℝ × MWorld a σ) → List (ℝ × ℝ × MWorld b τ) → List (ℝ × ℝ × MWorld (a + b) (σ × τ)) → Prop
  | nil : StepsTogether [] [] []
  | cons {dt t : ℝ} {w₁ : MWorld a σ} {w₂ : MWorld b τ} {w : MWorld (a + b) (σ × τ)}
      {u₁ : List (ℝ × ℝ × MWorld a σ)} {u₂ : List (ℝ × ℝ × MWorld b τ)} {u : List (ℝ × ℝ × MWorld (a + b) (σ × τ))}
      (hw : JoinedDyn w₁ w₂ w) (hg : w.ctrl.gforce = joinVec w₁.ctrl.gforce w₂.ctrl.gforce) (h : StepsTogether u₁ u₂ u) :
      StepsTogether ((t, dt, w₁) :: u₁) ((t, dt, w₂) :: u₂) ((t, dt, w) :: u)

lemma SeenTogether.append {σ τ : Type} {u₁ v₁ : List (ℕ × ℝ × ℝ × MWorld a σ)} {u₂ v₂ : List (ℕ × ℝ × ℝ × MWorld b τ)}
    {u v : List (ℕ × ℝ × ℝ × MWorld (a + b) (σ × τ))} (h : SeenTogether u₁ u₂ u) (h' : SeenTogether v₁ v₂ v) :
    SeenTogether (u₁ ++ v₁) (u₂ ++ v₂) (u ++ v) := by
  induction h with
  | nil => exact h'
  | cons hw hg _ ih => exact .cons hw hg ih

lemma StepsTogether.seen {σ τ : Type} {u₁ : List (ℝ × ℝ × MWorld a σ)} {u₂ : List (ℝ × ℝ × MWorld b τ)}
    {u : List (ℝ × ℝ × MWorld (a + b) (σ × τ))} (h : StepsTogether u₁ u₂ u) (k : ℕ) :
    SeenTogether (u₁.flatMap fun o => (List.range k).map fun i => (i, o.2.1, o.1, o.2.2))
      (u₂.flatMap fun o => (List.range k).map fun i => (i, o.2.1, o.1, o.2.2))
      (u.flatMap fun o => (List.range k).map fun i => (i, o.2.1, o.1, o.2.2)) := by
  induction h with
  | nil => exact .nil
  | cons hw hg _ ih =>
    simp only [List.flatMap_cons]
    refine SeenTogether.append ?_ ih
    induction List.range k with
    | nil => exact .nil
    | cons i l ih => exact .cons hw hg ih

lemma steps_join {σ τ : Type} {P₁ : Plug a σ} {P₂ : Plug b τ} {P : Plug (a + b) (σ × τ)} (hP : Separate P₁ P₂ P) {tl : List ℝ}
    (hp : tl.Pairwise (· < ·))
    {w₁ w₁' : MWorld a σ} {w₂ w₂' : MWorld b τ} {w : MWorld (a + b) (σ × τ)} {o₁ : List (ℝ × ℝ × MWorld a σ)}
    {o₂ : List (ℝ × ℝ × MWorld b τ)} (hw : Joined w₁ w₂ w) (hb : ∀ l ∈ w₁.tree.links, l.start + l.att.ndof ≤ a)
    (c₁ : w₁.cons = []) (c₂ : w₂.cons = [])
    (h₁ : Steps (engine P₁) tl w₁ o₁ w₁') (h₂ : Steps (engine P₂) tl w₂ o₂ w₂') :
    ∃ o w', Steps (engine P) tl w o w' ∧ Joined w₁' w₂' w' ∧ StepsTogether o₁ o₂ o := by
  induction h₁ generalizing w₂ w o₂ with
  | done t w₁ =>
    cases h₂ with
    | done => exact ⟨[], w, .done t w, hw, .nil⟩
  | step d₁ k₁ s₁ i₁ r₁ ih =>
    rename_i t t' ts _ _ _ _ _ _ _
    cases h₂ with
    | step d₂ k₂ s₂ i₂ r₂ =>
      have hdt : 0 < t' - t := by
        have := (List.pairwise_cons.mp hp).1 t' (by simp)
        linarith
      have e₁ := d₁
      have e₂ := d₂
      obtain ⟨x, hx, jx, tx₁, tx₂⟩ := dynamic_join hw hb d₁ d₂
      have f₁ : ∀ {n : ℕ} {σ : Type} {v v' : MWorld n σ}, dynamic v = .ok v' → v'.cons = v.cons := by
        intro n σ v v' h
        unfold dynamic at h
        split at h
        · cases h
        · rw [← Except.ok.inj h]
      obtain ⟨y, hy, jy, gy, ay, ty₁, ty₂, cy₁, cy₂⟩ := controllers_join hP jx k₁ k₂
      have z₁ := cy₁.trans ((f₁ d₁).trans c₁)
      have z₂ := cy₂.trans ((f₁ d₂).trans c₂)
      have q₁ := constraints_none P₁ hdt _ z₁
      have q₂ := constraints_none P₂ hdt _ z₂
      have q := constraints_none P hdt _ jy.cons
      simp only [engine] at s₁ s₂
      obtain rfl := Except.ok.inj (q₁.symm.trans s₁)
      obtain rfl := Except.ok.inj (q₂.symm.trans s₂)
      obtain ⟨v, hv, jv, bv, cv₁, cv₂⟩ := integrate_join jy gy ay (by rw [ty₁, tx₁]; exact hb) i₁ i₂
      obtain ⟨o, w', hs, hj, ho⟩ := ih (List.pairwise_cons.mp hp).2 jv bv (cv₁.trans z₁) (cv₂.trans z₂) r₂
      exact ⟨_, w', .step hx hy q hv hs, hj, .cons jy gy ho⟩

/-- C89: mechanisms that are not connected do not influence each other: when two worlds without constraints can be simulated
over a timeline, so can the world containing both mechanisms side by side, with the controllers of both; at every step
the observers see in it every body where it is in its own world, moving in the same way; the final state contains the
final states of both. -/
theorem C89_run {σ τ : Type} {P₁ : Plug a σ} {P₂ : Plug b τ} {P : Plug (a + b) (σ × τ)} (hP : Separate P₁ P₂ P) {w₁ w₁' : MWorld a σ}
    {w₂ w₂' : MWorld b τ} {w : MWorld (a + b) (σ × τ)} (hw : SideBySide w₁ w₂ w) (ha : ndof w₁.tree = a) (hb : ndof w₂.tree = b)
    (hc₁ : w₁.cons = []) (hc₂ : w₂.cons = []) (tl : List ℝ) (k : ℕ) {tr₁ : List (Ev (MWorld a σ))} {tr₂ : List (Ev (MWorld b τ))}
    {t₁ t₂ : ℝ} (h₁ : simulate (engine P₁) w₁ tl (.list k) = (tr₁, .ok (w₁', t₁)))
    (h₂ : simulate (engine P₂) w₂ tl (.list k) = (tr₂, .ok (w₂', t₂))) :
    ∃ tr w', simulate (engine P) w tl (.list k) = (tr, .ok (w', t₁)) ∧ t₂ = t₁ ∧ Joined w₁' w₂' w' ∧
      SeenTogether (updates tr₁) (updates tr₂) (updates tr) := by
  obtain ⟨t0, rest, v₁, o₁, rfl, hp, i₁, s₁, rfl, l₁⟩ := (C45_run ..).mp h₁
  obtain ⟨t0', rest', v₂, o₂, e, -, i₂, s₂, rfl, l₂⟩ := (C45_run ..).mp h₂
  obtain ⟨v, hi, hj, hbd, c₁, c₂⟩ := init_join hw ha hb i₁ i₂
  obtain ⟨o, w', hs, hj', ho⟩ := steps_join hP hp hj hbd (c₁.trans hc₁) (c₂.trans hc₂) s₁ s₂
  refine ⟨_, w', (C45_run ..).mpr ⟨t0, rest, v, o, rfl, hp, hi, hs, rfl, l₁⟩, Option.some.inj (l₂.symm.trans l₁), hj', ?_⟩
  rw [updates_runCalls, updates_runCalls, updates_runCalls]
  exact ho.seen k

/-- two tops side by side in one world -/
def tops : MWorld (1 + 1) (Unit × Unit) :=
  ⟨top.tree.append top.tree, 0, [], 0, 0, 0, ⟨0, 0, 0⟩, [], ((), ())⟩

lemma ForestRel.refl {L B : Type} {R : L → L → Prop} (h : ∀ l, R l l) (F : Forest L B) : ForestRel R F F := by
  induction F with
  | nil => exact .nil
  | cons l b ch sib ih1 ih2 => exact .cons (h l) ih1 ih2

/-- the hypotheses of `C89_run` can be met: two spinning tops, simulated over any timeline -/
theorem C89_example (tl : List ℝ) (htl : tl ≠ []) (hp : tl.Pairwise (· < ·)) (k : ℕ) :
    Separate noPlug noPlug (⟨fun _ _ => .ok (((), ()), []), fun _ c => c⟩ : Plug (1 + 1) (Unit × Unit)) ∧
    SideBySide top top tops ∧ ndof top.tree = 1 ∧ top.cons = [] ∧
    ∃ tr w' t', simulate (engine noPlug) top tl (.list k) = (tr, .ok (w', t')) := by
  obtain ⟨h1, -, h2⟩ := C87_example tl htl hp k
  refine ⟨?_, ⟨ForestRel.refl (R := fun l l' : MLink => l' = { l with start := l'.start }) (fun _ => rfl) _, rfl, rfl⟩, h1, rfl, h2⟩
  intro w₁ w₂ w dt m₁ m₂ v₁ v₂ _ e₁ e₂
  obtain ⟨rfl, rfl⟩ := Prod.mk.inj (Except.ok.inj e₁)
  obtain ⟨rfl, rfl⟩ := Prod.mk.inj (Except.ok.inj e₂)
  exact ⟨[], rfl, joinVec_zero.symm, joinMat_zero.symm⟩

/-- one `WeightController` in the world -/
def weightPlug (n : ℕ) (σ : Type) (γ : ℝ) (up : Vec3) : Plug n σ :=
  ⟨fun w _ => (weightUpdateE γ up w.dyn).map fun v => (w.mem, [v]), fun _ c => c⟩

lemma colsL_mulVec (J : Matrix (Fin 6) (Fin a) ℝ) (f : Vec6) : (colsL (b := b) J)ᵀ *ᵥ f = joinVec (Jᵀ *ᵥ f) 0 := by
  funext c
  simp only [colsL, joinVec, Matrix.mulVec, dotProduct, Matrix.transpose_apply, Matrix.of_apply]
  rcases finSumFinEquiv.symm c with c | c <;> simp [Matrix.mulVec, dotProduct]
lemma colsR_mulVec (J : Matrix (Fin 6) (Fin b) ℝ) (f : Vec6) : (colsR (a := a) J)ᵀ *ᵥ f = joinVec 0 (Jᵀ *ᵥ f) := by
  funext c
  simp only [colsR, joinVec, Matrix.mulVec, dotProduct, Matrix.transpose_apply, Matrix.of_apply]
  rcases finSumFinEquiv.symm c with c | c <;> simp [Matrix.mulVec, dotProduct]

open Classical in
/-- the value of `WeightController.update` and when it does not raise -/
lemma weightUpdateE_iff {n : ℕ} (γ : ℝ) (up : Vec3) (bs : List (Body × BodyDyn n)) (v : CtrlVal n) :
    weightUpdateE γ up bs = .ok v ↔ (∀ x ∈ bs.filter (fun x => weightNorm x.1.mass ≠ 0), ∃ A, iadjoint x.2.pose = .ok A) ∧
      v = ⟨((bs.filter fun x => weightNorm x.1.mass ≠ 0).map fun x =>
        x.2.jacᵀ *ᵥ (x.1.mass *ᵥ (((iadjoint x.2.pose).toOption.getD 0) *ᵥ gravityTwist γ up))).sum, 0⟩ := by
  have key : ∀ (l : List (Body × BodyDyn n)) (acc u : Fin n → ℝ),
      (l.foldlM (init := acc) fun acc x => do
        let A ← iadjoint x.2.pose
        return acc + x.2.jacᵀ *ᵥ (x.1.mass *ᵥ (A *ᵥ gravityTwist γ up)) : Except PyErr (Fin n → ℝ)) = .ok u ↔
      (∀ x ∈ l, ∃ A, iadjoint x.2.pose = .ok A) ∧ u = acc + (l.map fun x =>
        x.2.jacᵀ *ᵥ (x.1.mass *ᵥ (((iadjoint x.2.pose).toOption.getD 0) *ᵥ gravityTwist γ up))).sum := by
    intro l
    induction l with
    | nil =>
      intro acc u
      simp only [List.foldlM_nil, pure, Except.pure, Except.ok.injEq, List.not_mem_nil, false_imp_iff, implies_true, true_and,
        List.map_nil, List.sum_nil, add_zero]
      exact eq_comm
    | cons x l ih =>
      intro acc u
      rw [List.foldlM_cons]
      cases hx : iadjoint x.2.pose with
      | error e =>
        simp only [bind, Except.bind, reduceCtorEq, false_iff, not_and]
        intro h
        obtain ⟨A, hA⟩ := h x (by simp)
        rw [hx] at hA; cases hA
      | ok A =>
        have := ih (acc + x.2.jacᵀ *ᵥ (x.1.mass *ᵥ (A *ᵥ gravityTwist γ up))) u
        simp only [bind, Except.bind, pure, Except.pure] at this ⊢
        rw [this]
        simp only [List.mem_cons, forall_eq_or_imp, hx, List.map_cons, List.sum_cons, add_assoc, Except.toOption, Option.getD_some,
          Except.ok.injEq, exists_eq', true_and]
  unfold weightUpdateE
  have hk := key (bs.filter fun x => weightNorm x.1.mass ≠ 0) 0
  revert hk
  simp only [bind, Except.bind]
  generalize List.foldlM (m := Except PyErr) _ (0 : Fin n → ℝ) (bs.filter fun x => decide (weightNorm x.1.mass ≠ 0)) = r
  intro hk
  cases r with
  | error e =>
    simp only [bind, Except.bind, reduceCtorEq, false_iff, not_and]
    intro h _
    exact absurd ((hk _).mpr ⟨h, rfl⟩) (by simp)
  | ok u =>
    obtain ⟨h1, h2⟩ := (hk u).mp rfl
    simp only [bind, Except.bind, pure, Except.pure, Except.ok.injEq]
    rw [zero_add] at h2
    constructor
    · rintro rfl
      exact ⟨h1, by rw [h2]⟩
    · rintro ⟨-, rfl⟩
      rw [h2]

/-- C89: one `WeightController` for both mechanisms does to each what its own `WeightController` does. -/
theorem C89_weight (σ τ : Type) (γ : ℝ) (up : Vec3) :
    Separate (weightPlug a σ γ up) (weightPlug b τ γ up) (weightPlug (a + b) (σ × τ) γ up) := by
  classical
  intro w₁ w₂ w dt m₁ m₂ v₁ v₂ hw h₁ h₂
  simp only [weightPlug] at h₁ h₂ ⊢
  cases e₁ : weightUpdateE γ up w₁.dyn with
  | error e => simp [e₁, Except.map] at h₁
  | ok u₁ =>
  cases e₂ : weightUpdateE γ up w₂.dyn with
  | error e => simp [e₂, Except.map] at h₂
  | ok u₂ =>
  simp only [e₁, e₂, Except.map, Except.ok.injEq, Prod.mk.injEq] at h₁ h₂
  obtain ⟨rfl, rfl⟩ := h₁
  obtain ⟨rfl, rfl⟩ := h₂
  obtain ⟨a₁, b₁⟩ := (weightUpdateE_iff ..).mp e₁
  obtain ⟨a₂, b₂⟩ := (weightUpdateE_iff ..).mp e₂
  have e : weightUpdateE γ up w.dyn = .ok ⟨joinVec u₁.gforce u₂.gforce, 0⟩ := by
    refine (weightUpdateE_iff ..).mpr ⟨?_, ?_⟩
    · rw [hw.bodies]
      intro x hx
      rw [List.filter_append, List.mem_append, List.filter_map, List.filter_map] at hx
      rcases hx with hx | hx
      · obtain ⟨y, hy, rfl⟩ := List.mem_map.mp hx
        exact a₁ y hy
      · obtain ⟨y, hy, rfl⟩ := List.mem_map.mp hx
        exact a₂ y hy
    · rw [hw.bodies, b₁, b₂]
      simp only [CtrlVal.mk.injEq, and_true]
      rw [List.filter_append, List.filter_map, List.filter_map, List.map_append, List.sum_append, List.map_map, List.map_map]
      rw [← joinVec_sum]
      simp only [Function.comp_def, dynL, dynR, colsL_mulVec, colsR_mulVec]
  refine ⟨[⟨joinVec u₁.gforce u₂.gforce, 0⟩], ?_, by simp, ?_⟩
  · rw [e, hw.mem]; rfl
  · simp only [List.map_cons, List.map_nil, List.sum_cons, List.sum_nil, add_zero, b₁, b₂, joinMat_zero]

end
end Arboris
