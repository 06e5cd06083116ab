import Verif.Spec.ColladaShapes
import Verif.Props.Collada
import Verif.Proofs.Contact
import Verif.Props.Collisions

/-! # C100: the Collada scene shows the shapes where the collision solvers take them to be -/

namespace Arboris
open Spec Visu Build Log Graph Matrix

lemma toGround_mul_rigid {P : Mat4} (hP : IsRigid P) {X : Mat4} (y : Vec3) (hX : ∀ j, X 3 j = if j = 3 then 1 else 0) :
    toGround (P * X) y = toGround P (toGround X y) := by
  have _ := hP
  funext i
  have h0 := hX 0; have h1 := hX 1; have h2 := hX 2; have h3 := hX 3
  simp at h0 h1 h2 h3
  simp only [toGround, Matrix.mul_apply, Fin.sum_univ_four, h0, h1, h2, h3]
  have e0 : (0 : Fin 3).castSucc = (0 : Fin 4) := rfl
  have e1 : (1 : Fin 3).castSucc = (1 : Fin 4) := rfl
  have e2 : (2 : Fin 3).castSucc = (2 : Fin 4) := rfl
  simp only [e0, e1, e2]
  ring

lemma toGround_scaleT (a b c : ℝ) (y : Vec3) : toGround (scaleT a b c) y = ![a * y 0, b * y 1, c * y 2] := by
  funext i; fin_cases i <;> simp [toGround, scaleT]

lemma scaleT_last (a b c : ℝ) (j : Fin 4) : scaleT a b c 3 j = if j = 3 then 1 else 0 := by
  fin_cases j <;> simp [scaleT]

lemma origin_toGround (P : Mat4) : origin P = toGround P 0 := by
  funext i; simp [origin, toGround]

/-- a length at most `h` is `h` times a number at most 1 -/
lemma exists_scaled {z h : ℝ} (hz : |z| ≤ h) : ∃ t, |t| ≤ 1 ∧ z = h * t := by
  rcases (le_trans (abs_nonneg z) hz).eq_or_lt with h0 | h0
  · refine ⟨0, by simp, ?_⟩
    rw [← h0] at hz
    simp [abs_nonpos_iff.mp hz]
  · exact ⟨z / h, by rw [abs_div, abs_of_pos h0, div_le_one h0]; exact hz, by field_simp⟩

lemma scaled_le {t h : ℝ} (h0 : 0 ≤ h) (ht : |t| ≤ 1) : |h * t| ≤ h := by
  rw [abs_mul, abs_of_nonneg h0]; exact mul_le_of_le_one_right h0 ht

lemma ball_toGround {P : Mat4} (hP : IsRigid P) {r : ℝ} (h0 : 0 ≤ r) (x : Vec3) :
    x ∈ ball (origin P) r ↔ ∃ z : Vec3, z 0 ^ 2 + z 1 ^ 2 + z 2 ^ 2 ≤ r ^ 2 ∧ x = toGround P z := by
  have key : ∀ z, dist3 (origin P) (toGround P z) ≤ r ↔ z 0 ^ 2 + z 1 ^ 2 + z 2 ^ 2 ≤ r ^ 2 := by
    intro z
    rw [origin_toGround, dist3_toGround hP]
    simp only [dist3, Pi.zero_apply, zero_sub, neg_sq]
    rw [Real.sqrt_le_left h0]
  constructor
  · intro h
    refine ⟨pdotBody (invBody P) x, ?_, (toGround_invBody hP x).symm⟩
    rw [← key, toGround_invBody hP]
    exact h
  · rintro ⟨z, hz, rfl⟩
    exact (key z).mpr hz

lemma seen_ball {P : Mat4} (hP : IsRigid P) {r : ℝ} (h0 : 0 ≤ r) : seen (P * scaleT r r r) .sphere = ball (origin P) r := by
  ext x
  rw [ball_toGround hP h0]
  constructor
  · rintro ⟨y, hy, rfl⟩
    refine ⟨![r * y 0, r * y 1, r * y 2], ?_, by rw [toGround_mul_rigid hP _ (scaleT_last _ _ _), toGround_scaleT]⟩
    have : y 0 ^ 2 + y 1 ^ 2 + y 2 ^ 2 ≤ 1 := hy
    simp
    nlinarith [mul_le_mul_of_nonneg_left this (sq_nonneg r)]
  · rintro ⟨z, hz, rfl⟩
    rcases h0.eq_or_lt with h | h
    · subst h
      refine ⟨0, by simp [meshSet], ?_⟩
      rw [toGround_mul_rigid hP _ (scaleT_last _ _ _), toGround_scaleT]
      congr 1
      have e : ∀ k, z k = 0 := by
        intro k
        have : z k ^ 2 ≤ 0 := by fin_cases k <;> simp <;> nlinarith [sq_nonneg (z 0), sq_nonneg (z 1), sq_nonneg (z 2)]
        exact pow_eq_zero_iff (two_ne_zero) |>.mp (le_antisymm this (sq_nonneg _))
      funext k; fin_cases k <;> simp [e]
    · refine ⟨fun k => z k / r, ?_, ?_⟩
      · simp only [meshSet, Set.mem_setOf_eq, div_pow, ← add_div]
        rw [div_le_one (by positivity)]; exact hz
      · rw [toGround_mul_rigid hP _ (scaleT_last _ _ _), toGround_scaleT]
        congr 1
        funext k; fin_cases k <;> simp <;> field_simp

lemma seen_box {P : Mat4} (hP : IsRigid P) {he : Vec3} (h0 : ∀ k, 0 ≤ he k) :
    seen (P * scaleT (he 0) (he 1) (he 2)) .box = box P he := by
  ext x
  constructor
  · rintro ⟨y, hy, rfl⟩
    refine ⟨![he 0 * y 0, he 1 * y 1, he 2 * y 2], ?_, by rw [toGround_mul_rigid hP _ (scaleT_last _ _ _), toGround_scaleT]⟩
    intro k
    fin_cases k
    · exact scaled_le (h0 0) (hy 0)
    · exact scaled_le (h0 1) (hy 1)
    · exact scaled_le (h0 2) (hy 2)
  · rintro ⟨z, hz, rfl⟩
    choose t ht e using fun k => exists_scaled (hz k)
    refine ⟨t, ht, ?_⟩
    rw [toGround_mul_rigid hP _ (scaleT_last _ _ _), toGround_scaleT]
    congr 1
    funext k; fin_cases k <;> simp [e]

lemma seen_cylinder {P : Mat4} (hP : IsRigid P) {l r : ℝ} (hl : 0 ≤ l) (hr : 0 ≤ r) :
    seen (P * scaleT r r l) .cylinder = cylinder P l r := by
  ext x
  constructor
  · rintro ⟨y, ⟨hy, hy2⟩, rfl⟩
    refine ⟨![r * y 0, r * y 1, l * y 2], ?_, ?_, by rw [toGround_mul_rigid hP _ (scaleT_last _ _ _), toGround_scaleT]⟩
    · simp
      nlinarith [mul_le_mul_of_nonneg_left hy (sq_nonneg r)]
    · have e : (![r * y 0, r * y 1, l * y 2] : Vec3) 2 = l * y 2 := rfl
      rw [e, abs_mul, abs_of_nonneg hl]
      nlinarith [mul_le_mul_of_nonneg_left hy2 hl]
  · rintro ⟨z, hz, hz2, rfl⟩
    obtain ⟨t, ht, et⟩ := exists_scaled hz2
    have hh : ∃ a b : ℝ, a ^ 2 + b ^ 2 ≤ 1 ∧ z 0 = r * a ∧ z 1 = r * b := by
      rcases hr.eq_or_lt with h | h
      · subst h
        refine ⟨0, 0, by simp, ?_, ?_⟩
        · nlinarith [sq_nonneg (z 0), sq_nonneg (z 1)]
        · nlinarith [sq_nonneg (z 0), sq_nonneg (z 1)]
      · refine ⟨z 0 / r, z 1 / r, ?_, by field_simp, by field_simp⟩
        rw [div_pow, div_pow, ← add_div, div_le_one (by positivity)]; exact hz
    obtain ⟨a, b, hab, ea, eb⟩ := hh
    refine ⟨![a, b, t / 2], ⟨by simpa using hab, ?_⟩, ?_⟩
    · have e : (![a, b, t / 2] : Vec3) 2 = t / 2 := rfl
      rw [e, abs_div, abs_two]
      linarith
    · rw [toGround_mul_rigid hP _ (scaleT_last _ _ _), toGround_scaleT]
      congr 1
      funext k; fin_cases k <;> simp [ea, eb, et]
      ring

lemma seen_plane {P : Mat4} (hP : IsRigid P) {R : Mat3} (hR : IsRotation R) {n : Vec3} (hz : (fun i => R i 2) = n) (d a b : ℝ) (ha : 0 ≤ a) (hb : 0 ≤ b) :
    seen (P * (mkH R (d • n) * scaleT a b 0)) .plane ⊆ plane P n (-d) ∧
    ∀ x ∈ plane P n (-d), dist3 (toGround P (d • n)) x ≤ min a b → x ∈ seen (P * (mkH R (d • n) * scaleT a b 0)) .plane := by
  have hlast : ∀ j, (mkH R (d • n) * scaleT a b 0) 3 j = if j = 3 then 1 else 0 := by
    intro j
    fin_cases j <;> simp [Matrix.mul_apply, Fin.sum_univ_four, mkH, scaleT]
  have hn : n ⬝ᵥ n = 1 := by
    have := congrFun (congrFun hR.2.1 2) 2
    simp [Matrix.mul_apply, Fin.sum_univ_three] at this
    rw [← hz]
    simp [dotProduct, Fin.sum_univ_three]
    linarith
  have hx0 : ∀ k : Fin 3, k ≠ 2 → n ⬝ᵥ (fun i => R i k) = 0 := by
    intro k hk
    have := congrFun (congrFun hR.2.1 2) k
    rw [Matrix.one_apply_ne (Ne.symm hk)] at this
    simp [Matrix.mul_apply, Fin.sum_univ_three] at this
    rw [← hz]
    simp [dotProduct, Fin.sum_univ_three]
    linarith
  -- coordinates of a drawn point
  have hpt : ∀ y : Vec3, toGround (P * (mkH R (d • n) * scaleT a b 0)) y = toGround P (R *ᵥ ![a * y 0, b * y 1, 0] + d • n) := by
    intro y
    rw [toGround_mul_rigid hP _ hlast]
    congr 1
    have := toGround_mul_rigid (isRigid_mkH hR (p := d • n)) (X := scaleT a b 0) y (scaleT_last _ _ _)
    rw [this, toGround_scaleT, toGround_mkH]
    simp
  constructor
  · rintro x ⟨y, -, rfl⟩
    refine ⟨R *ᵥ ![a * y 0, b * y 1, 0] + d • n, ?_, hpt y⟩
    have h0 := hx0 0 (by decide)
    have h1 := hx0 1 (by decide)
    have : n ⬝ᵥ (R *ᵥ ![a * y 0, b * y 1, 0]) = 0 := by
      simp [dotProduct, Fin.sum_univ_three, Matrix.mulVec] at h0 h1 ⊢
      linear_combination (a * y 0) * h0 + (b * y 1) * h1
    rw [dotProduct_add, this, dotProduct_smul, hn]
    simp
  · rintro x ⟨z, hzn, rfl⟩ hdist
    rw [dist3_toGround hP] at hdist
    set u : Vec3 := R.transpose *ᵥ (z - d • n) with hu
    have hu2 : u 2 = 0 := by
      have e : u 2 = n ⬝ᵥ (z - d • n) := by
        rw [hu, ← hz]; simp [Matrix.mulVec, dotProduct, Fin.sum_univ_three]
      rw [e, dotProduct_sub, dotProduct_smul, hn]
      simp; linarith
    have hRu : R *ᵥ u = z - d • n := by
      rw [hu, Matrix.mulVec_mulVec, hR.1]; simp
    have hnorm : dist3 (d • n) z = √(u 0 ^ 2 + u 1 ^ 2 + u 2 ^ 2) := by
      have h1 : dist3 (d • n) z = dist3 (toGround (mkH R (d • n)) 0) (toGround (mkH R (d • n)) u) := by
        rw [toGround_mkH, toGround_mkH, hRu]; simp
      rw [h1, dist3_toGround (isRigid_mkH hR)]
      simp [dist3]
    rw [hnorm, hu2] at hdist
    have hmin : 0 ≤ min a b := le_min ha hb
    rw [Real.sqrt_le_left hmin] at hdist
    have k0 : |u 0| ≤ a := by
      refine le_trans ?_ (min_le_left a b)
      exact abs_le_of_sq_le_sq (by nlinarith [sq_nonneg (u 1)]) hmin
    have k1 : |u 1| ≤ b := by
      refine le_trans ?_ (min_le_right a b)
      exact abs_le_of_sq_le_sq (by nlinarith [sq_nonneg (u 0)]) hmin
    obtain ⟨s, hs, es⟩ := exists_scaled k0
    obtain ⟨t, ht, et⟩ := exists_scaled k1
    refine ⟨![s, t, 0], ⟨by simpa using hs, by simpa using ht, rfl⟩, ?_⟩
    rw [hpt]
    congr 1
    have : (![a * (![s, t, 0] : Vec3) 0, b * (![s, t, 0] : Vec3) 1, 0] : Vec3) = u := by
      funext k; fin_cases k
      · simp [es]
      · simp [et]
      · exact hu2.symm
    rw [this, hRu]
    simp

/-- **C100.** Whatever the pose `P` of its frame, a sensible shape has a mesh and a matrix, and what a viewer shows of them
under a node drawn at `P` is the shape itself. -/
theorem C100_drawn {op : Opts} (hop : 0 ≤ op.pointRadius ∧ 0 ≤ op.planeHalf.1 ∧ 0 ≤ op.planeHalf.2) {argsort : Vec3 → Equiv.Perm (Fin 3)}
    (hs : ∀ z, IsArgsortAbs z (argsort z)) {P : Mat4} (hP : IsRigid P) {s : ShapeGeo} (h : Sensible s) :
    ∃ m X, shapeXform op argsort s = .ok (m, X) ∧ Draws op P s (seen (P * X) m) := by
  cases s with
  | point => exact ⟨_, _, rfl, seen_ball hP hop.1⟩
  | sphere r => exact ⟨_, _, rfl, seen_ball hP h⟩
  | box he => exact ⟨_, _, rfl, seen_box hP h⟩
  | cylinder l r => exact ⟨_, _, rfl, seen_cylinder hP h.1 h.2⟩
  | plane c =>
    have hn : norm3 ![c 0, c 1, c 2] = 1 := by
      simp only [norm3]
      rw [Real.sqrt_eq_one]
      exact h
    obtain ⟨R, e, hR, hz⟩ := zaligned_mkH hn (hs ![c 0, c 1, c 2])
    refine ⟨.plane, mkH R (c 3 • ![c 0, c 1, c 2]) * scaleT op.planeHalf.1 op.planeHalf.2 0, ?_, seen_plane hP hR hz _ _ _ hop.2.1 hop.2.2⟩
    simp only [shapeXform, bind, Except.bind, e, rot_mkH, pure, Except.pure]

/-- **C100.** With the default options at a scale `s`, a point is seen as a ball of radius `0.008 s`, and of a plane one
sees at least what is within the distance `s` of its foot. -/
theorem C100_default {sc : ℝ} (hsc : 0 ≤ sc) {argsort : Vec3 → Equiv.Perm (Fin 3)} (hs : ∀ z, IsArgsortAbs z (argsort z))
    {P : Mat4} (hP : IsRigid P) :
    (∃ m X, shapeXform (defaultOpts sc) argsort .point = .ok (m, X) ∧ seen (P * X) m = ball (origin P) (8 / 1000 * sc)) ∧
    ∀ c : Vec4, c 0 ^ 2 + c 1 ^ 2 + c 2 ^ 2 = 1 → ∃ m X, shapeXform (defaultOpts sc) argsort (.plane c) = .ok (m, X) ∧
      seen (P * X) m ⊆ plane P ![c 0, c 1, c 2] (-c 3) ∧
      ∀ x ∈ plane P ![c 0, c 1, c 2] (-c 3), dist3 (toGround P (c 3 • ![c 0, c 1, c 2])) x ≤ sc → x ∈ seen (P * X) m := by
  have hop : 0 ≤ (defaultOpts sc).pointRadius ∧ 0 ≤ (defaultOpts sc).planeHalf.1 ∧ 0 ≤ (defaultOpts sc).planeHalf.2 := by
    simp only [defaultOpts]
    refine ⟨by positivity, by linarith, by linarith⟩
  constructor
  · obtain ⟨m, X, h1, h2⟩ := C100_drawn hop hs hP (s := .point) trivial
    refine ⟨m, X, h1, h2.trans ?_⟩
    simp only [defaultOpts]
    norm_num
  · intro c hc
    obtain ⟨m, X, h1, h2⟩ := C100_drawn hop hs hP (s := .plane c) hc
    obtain ⟨h3, h4⟩ := h2
    refine ⟨m, X, h1, h3, fun x hx hd => h4 x hx ?_⟩
    simpa [defaultOpts] using hd

/-- Whatever is seen of a shape is the shape, for the mesh and the matrix the driver chose. -/
lemma draws_of_ok {op : Opts} (hop : 0 ≤ op.pointRadius ∧ 0 ≤ op.planeHalf.1 ∧ 0 ≤ op.planeHalf.2) {argsort : Vec3 → Equiv.Perm (Fin 3)}
    (hs : ∀ z, IsArgsortAbs z (argsort z)) {P : Mat4} (hP : IsRigid P) {s : ShapeGeo} (h : Sensible s) {m : Mesh} {X : Mat4}
    (e : shapeXform op argsort s = .ok (m, X)) : Draws op P s (seen (P * X) m) := by
  obtain ⟨m', X', e', hd⟩ := C100_drawn hop hs hP h
  rw [e] at e'
  obtain ⟨rfl, rfl⟩ := Prod.mk.inj (Except.ok.inj e')
  exact hd

/-- **C100.** In a scene that shows the world at the geometry `g` (C99: the written scene, and every key of the
animation), there is exactly one node per shape attached to the world, and a viewer composing the matrices from the root to
that node sees the shape at the pose of its frame. -/
theorem C100_scene {o : Objs} {w : World} {F : Forest (FrameRef × ℕ × FrameRef) ℕ} {lab : Labels} {op : Opts}
    (hop : 0 ≤ op.pointRadius ∧ 0 ≤ op.planeHalf.1 ∧ 0 ≤ op.planeHalf.2) {argsort : Vec3 → Equiv.Perm (Fin 3)}
    (hs : ∀ z, IsArgsortAbs z (argsort z)) {c : CSt} {nodes : List Node} {g : Geo} (hc : Shows o w F lab op argsort c nodes g)
    (hsens : ∀ s ∈ w.shapes, Sensible (lab.geo s)) (hrig : ∀ s ∈ w.shapes, IsRigid (poseOf o g (o.shapeFrame s))) :
    ∃ S : List ℕ, S.Nodup ∧ (∀ s, s ∈ S ↔ s ∈ w.shapes ∧ o.bodyOf (o.shapeFrame s) ∈ w.ground :: F.bodies) ∧
      List.Forall₂ (fun s n => ∃ H, DrawnAt nodes n.parent H ∧ Draws op (poseOf o g (o.shapeFrame s)) (lab.geo s) (seen (H * n.xform) n.mesh)) S c.shapes := by
  obtain ⟨S, h1, h2, h3⟩ := hc.shapes
  refine ⟨S, h1, h2, ?_⟩
  have hall : ∀ s ∈ S, s ∈ w.shapes := fun s hs => ((h2 s).mp hs).1
  clear h1 h2
  generalize hl : c.shapes = l at h3
  clear hl
  induction h3 with
  | nil => exact .nil
  | @cons s n S l hsn hrest ih =>
    refine .cons ⟨_, hsn.1, ?_⟩ (ih fun t ht => hall t (List.mem_cons_of_mem _ ht))
    have hm := hall s List.mem_cons_self
    exact draws_of_ok hop hs (hrig s hm) (hsens s hm) hsn.2

/-- **C100, false part.** A plane with a non-zero constant is not drawn where its documentation puts it
(`a x + b y + c z + d = 0`, shapes.py): no point of the drawing is on it. -/
theorem C100_plane_false {op : Opts} (hop : 0 ≤ op.pointRadius ∧ 0 ≤ op.planeHalf.1 ∧ 0 ≤ op.planeHalf.2) {argsort : Vec3 → Equiv.Perm (Fin 3)}
    (hs : ∀ z, IsArgsortAbs z (argsort z)) {P : Mat4} (hP : IsRigid P) {k : Fin 4 → ℝ} (h : Sensible (.plane k)) (h3 : k 3 ≠ 0) :
    ∃ m X, shapeXform op argsort (.plane k) = .ok (m, X) ∧ (seen (P * X) m).Nonempty ∧
      ∀ x ∈ seen (P * X) m, x ∉ plane P ![k 0, k 1, k 2] (k 3) := by
  obtain ⟨m, X, e, hd⟩ := C100_drawn hop hs hP h
  refine ⟨m, X, e, ?_, ?_⟩
  · have hn : (![k 0, k 1, k 2] : Vec3) ⬝ᵥ ![k 0, k 1, k 2] = 1 := by
      have : k 0 ^ 2 + k 1 ^ 2 + k 2 ^ 2 = 1 := h
      simp [dotProduct, Fin.sum_univ_three]
      linarith
    refine ⟨_, hd.2 (toGround P (k 3 • ![k 0, k 1, k 2])) ⟨_, ?_, rfl⟩ ?_⟩
    · rw [dotProduct_smul, hn]; simp
    · rw [dist3_self]; exact le_min hop.2.1 hop.2.2
  · rintro x hx ⟨z, hz, rfl⟩
    obtain ⟨y, hy, e⟩ := hd.1 hx
    have : z = y := by
      have := congrArg (pdotBody (invBody P)) e
      rwa [invBody_toGround hP, invBody_toGround hP] at this
    subst this
    apply h3
    linarith

/-- the hypotheses are met: with the default options, an unscaled world and a tilted plane at distance 2 -/
example {P : Mat4} (hP : IsRigid P) : ∃ argsort : Vec3 → Equiv.Perm (Fin 3), ∃ m X, shapeXform (defaultOpts 1) argsort (.plane ![3/5, 0, 4/5, 2]) = .ok (m, X) ∧
    Draws (defaultOpts 1) P (.plane ![3/5, 0, 4/5, 2]) (seen (P * X) m) := by
  obtain ⟨sort, hs⟩ := C48_sort_exists
  exact ⟨sort, C100_drawn (by norm_num [defaultOpts]) hs hP (by change (3/5 : ℝ) ^ 2 + 0 ^ 2 + (4/5) ^ 2 = 1; norm_num)⟩

end Arboris
