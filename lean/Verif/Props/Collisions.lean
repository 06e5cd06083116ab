import Verif.Proofs.Contact
import Mathlib.Data.Fin.Tuple.Sort

/-!
# C48 – C53: collision detection

`sort` is numpy's `argsort(absolute(·))`, `amin` numpy's `argmin`; all the theorems hold for every function that meets
their specification.
-/

namespace Arboris
open Matrix Spec

variable {sort : Vec3 → Equiv.Perm (Fin 3)}

/-! ### C48 -/

/-- C48: for distinct centres the solver succeeds, whatever the radii. -/
theorem C48_sphere_sphere (hs : ∀ z, IsArgsortAbs z (sort z)) {p0 p1 : Vec3} (hp : p0 ≠ p1) (r0 r1 : ℝ) :
    ∃ c, sphereSphere sort p0 r0 p1 r1 = .ok c ∧ c.sdist = dist3 p0 p1 - r0 - r1 ∧
      IsRigid c.H0 ∧ IsRigid c.H1 ∧ SameAxes c.H0 c.H1 ∧
      zAxis c.H0 = (dist3 p0 p1)⁻¹ • (p1 - p0) ∧
      origin c.H0 = p0 + r0 • zAxis c.H0 ∧ origin c.H1 = p1 - r1 • zAxis c.H0 ∧
      dist3 p0 (origin c.H0) = |r0| ∧ dist3 p1 (origin c.H1) = |r1| ∧
      origin c.H1 = origin c.H0 + c.sdist • zAxis c.H0 := by
  have hv : p1 - p0 ≠ 0 := sub_ne_zero.mpr hp.symm
  have hn := norm3_unit hv
  have hd : norm3 (p1 - p0) = dist3 p0 p1 := by rw [norm3_sub, dist3_comm]
  have hd0 : dist3 p0 p1 ≠ 0 := (dist3_pos hp).ne'
  rw [hd] at hn
  obtain ⟨R, e, hR, hz⟩ := zaligned_mkH hn (hs _)
  refine ⟨⟨dist3 p0 p1 - r0 - r1, mkH R (p0 + r0 • (dist3 p0 p1)⁻¹ • (p1 - p0)),
    mkH R (p0 + r0 • (dist3 p0 p1)⁻¹ • (p1 - p0) + (dist3 p0 p1 - r0 - r1) • (dist3 p0 p1)⁻¹ • (p1 - p0))⟩,
    ?_, rfl, isRigid_mkH hR, isRigid_mkH hR, sameAxes_mkH _ _ _, ?_, ?_, ?_, ?_, ?_, ?_⟩
  · simp only [sphereSphere, hd, e, bind, Except.bind, zcol_mkH, hz, setPos_mkH, pos_mkH]; rfl
  · simp only [zAxis_mkH, hz]
  · simp only [zAxis_mkH, hz, origin_mkH]
  · simp only [zAxis_mkH, hz, origin_mkH]
    ext i
    simp only [Pi.add_apply, Pi.smul_apply, Pi.sub_apply, smul_eq_mul]
    field_simp; ring
  · rw [origin_mkH, dist3_add_smul _ _ hn]
  · have : p0 + r0 • (dist3 p0 p1)⁻¹ • (p1 - p0) + (dist3 p0 p1 - r0 - r1) • (dist3 p0 p1)⁻¹ • (p1 - p0) =
        p1 + (-r1) • (dist3 p0 p1)⁻¹ • (p1 - p0) := by
      ext i
      simp only [Pi.add_apply, Pi.smul_apply, Pi.sub_apply, smul_eq_mul]
      field_simp; ring
    rw [origin_mkH, this, dist3_add_smul _ _ hn, abs_neg]
  · simp only [zAxis_mkH, hz, origin_mkH]

/-- C48: coincident centres are the only failure. -/
theorem C48_coincident (p : Vec3) (r0 r1 : ℝ) : sphereSphere sort p r0 p r1 = .error .assertion := by
  have h0 : norm3 (0 : Vec3) = 0 := norm3_eq_zero.mpr rfl
  have : zaligned (0 : Vec3) (sort 0) = .error .assertion := by
    rw [zaligned, if_neg]; rw [h0]; norm_num
  simp only [sphereSphere, sub_self, smul_zero, this, bind, Except.bind]

/-- C48: exchanging the spheres keeps `sdist`, exchanges the contact points and reverses the normal. -/
theorem C48_symmetric (hs : ∀ z, IsArgsortAbs z (sort z)) {p0 p1 : Vec3} {r0 r1 : ℝ} {c c' : Collision}
    (h : sphereSphere sort p0 r0 p1 r1 = .ok c) (h' : sphereSphere sort p1 r1 p0 r0 = .ok c') :
    c'.sdist = c.sdist ∧ origin c'.H0 = origin c.H1 ∧ origin c'.H1 = origin c.H0 ∧ zAxis c'.H0 = -zAxis c.H0 := by
  have hp : p0 ≠ p1 := by rintro rfl; rw [C48_coincident] at h; cases h
  obtain ⟨d, e, h1, -, -, -, h2, h3, h4, -⟩ := C48_sphere_sphere hs hp r0 r1
  obtain ⟨d', e', h1', -, -, -, h2', h3', h4', -⟩ := C48_sphere_sphere hs hp.symm r1 r0
  obtain rfl : c = d := by rw [h] at e; exact Except.ok.inj e
  obtain rfl : c' = d' := by rw [h'] at e'; exact Except.ok.inj e'
  have hz : zAxis c'.H0 = -zAxis c.H0 := by
    rw [h2', h2, dist3_comm, ← smul_neg]; congr 1; abel
  refine ⟨by rw [h1', h1, dist3_comm]; ring, ?_, ?_, hz⟩
  · rw [h3', h4, hz, smul_neg]; abel
  · rw [h4', h3, hz, smul_neg]; abel

/-- C48: `sdist` bounds from below the distance of any two points of the two solid spheres. -/
theorem C48_least (hs : ∀ z, IsArgsortAbs z (sort z)) {p0 p1 : Vec3} {r0 r1 : ℝ} {c : Collision}
    (h : sphereSphere sort p0 r0 p1 r1 = .ok c) {x y : Vec3} (hx : x ∈ ball p0 r0) (hy : y ∈ ball p1 r1) :
    c.sdist ≤ dist3 x y := by
  have hp : p0 ≠ p1 := by rintro rfl; rw [C48_coincident] at h; cases h
  obtain ⟨d, e, h1, -⟩ := C48_sphere_sphere hs hp r0 r1
  obtain rfl : c = d := by rw [h] at e; exact Except.ok.inj e
  have t1 := dist3_triangle p0 x p1
  have t2 := dist3_triangle x y p1
  rw [dist3_comm y p1] at t2
  simp only [ball, Set.mem_setOf_eq] at hx hy
  rw [h1]; linarith

/-- C48: when the spheres do not overlap, the two contact points realise that distance. -/
theorem C48_attained (hs : ∀ z, IsArgsortAbs z (sort z)) {p0 p1 : Vec3} {r0 r1 : ℝ} {c : Collision}
    (h : sphereSphere sort p0 r0 p1 r1 = .ok c) : dist3 (origin c.H0) (origin c.H1) = |c.sdist| := by
  have hp : p0 ≠ p1 := by rintro rfl; rw [C48_coincident] at h; cases h
  obtain ⟨d, e, -, -, -, -, h5, -, -, -, -, h4⟩ := C48_sphere_sphere hs hp r0 r1
  obtain rfl : c = d := by rw [h] at e; exact Except.ok.inj e
  rw [h4, dist3_add_smul]
  rw [h5, show dist3 p0 p1 = norm3 (p1 - p0) by rw [norm3_sub, dist3_comm]]
  exact norm3_unit (sub_ne_zero.mpr hp.symm)

/-- a sorting function exists -/
theorem C48_sort_exists : ∃ sort : Vec3 → Equiv.Perm (Fin 3), ∀ z, IsArgsortAbs z (sort z) := by
  have : ∀ z : Vec3, ∃ idx : Equiv.Perm (Fin 3), IsArgsortAbs z idx := by
    intro z
    refine ⟨Tuple.sort fun i => |z i|, ?_, ?_⟩
    · exact Tuple.monotone_sort (fun i => |z i|) (by decide)
    · exact Tuple.monotone_sort (fun i => |z i|) (by decide)
  choose f hf using this
  exact ⟨f, hf⟩

/-- the premises of C48 are met by two unequal spheres apart -/
example : (![0,0,0] : Vec3) ≠ ![2,2,1] ∧ dist3 ![0,0,0] ![2,2,1] - 1.1 - 1.2 = 0.7 := by
  constructor
  · intro h; have := congrFun h 0; simp at this
  · have : dist3 ![0,0,0] ![2,2,1] = 3 := by
      simp only [dist3, Matrix.cons_val_zero, Matrix.cons_val_one, Matrix.cons_val]
      rw [show ((0:ℝ) - 2) ^ 2 + (0 - 2) ^ 2 + (0 - 1) ^ 2 = 3 ^ 2 by norm_num]
      exact Real.sqrt_sq (by norm_num)
    rw [this]; norm_num

/-! ### C49 -/

variable {amin : (Fin 6 → ℝ) → Fin 6}

lemma pdot_ok {H : Mat4} (h : IsRigid H) (x : Vec3) : pdot H x = .ok (toGround H x) := by
  rw [toGround_eq h]; exact assertHom_ok h.ishom _

lemma inv_ok {H : Mat4} (h : IsRigid H) : inv H = .ok (invBody H) := assertHom_ok h.ishom _

lemma clamp_closest {h y : Vec3} (hh : ∀ k, 0 ≤ h k) :
    (∀ k, |max (min (h k) (y k)) (-h k)| ≤ h k) ∧
    ∀ z : Vec3, (∀ k, |z k| ≤ h k) → dist3 y (fun k => max (min (h k) (y k)) (-h k)) ≤ dist3 y z := by
  constructor
  · intro k
    rw [abs_le]
    have := hh k
    exact ⟨le_max_right _ _, max_le (min_le_left _ _) (by linarith)⟩
  · intro z hz
    have key : ∀ k, (y k - max (min (h k) (y k)) (-h k)) ^ 2 ≤ (y k - z k) ^ 2 := by
      intro k
      have h0 := hh k
      obtain ⟨h1, h2⟩ := abs_le.mp (hz k)
      rcases le_total (h k) (y k) with c | c
      · rw [min_eq_left c, max_eq_left (by linarith)]
        nlinarith
      · rw [min_eq_right c]
        rcases le_total (-h k) (y k) with d | d
        · rw [max_eq_left d, sub_self, zero_pow two_ne_zero]
          exact sq_nonneg _
        · rw [max_eq_right d]
          nlinarith
    unfold dist3
    exact Real.sqrt_le_sqrt (by linarith [key 0, key 1, key 2])

/-- C49: the centre of the sphere is out of the box. -/
theorem C49_box_sphere (hs : ∀ z, IsArgsortAbs z (sort z)) {H : Mat4} (hH : IsRigid H) {h : Vec3} (hh : ∀ k, 0 ≤ h k)
    {p : Vec3} (hp : p ∉ box H h) (r : ℝ) :
    ∃ c, boxSphere sort amin H h p r = .ok c ∧ IsRigid c.H0 ∧ IsRigid c.H1 ∧ SameAxes c.H0 c.H1 ∧
      origin c.H0 ∈ box H h ∧ (∀ x ∈ box H h, dist3 p (origin c.H0) ≤ dist3 p x) ∧
      c.sdist = dist3 p (origin c.H0) - r ∧
      zAxis c.H0 = (dist3 p (origin c.H0))⁻¹ • (p - origin c.H0) ∧
      origin c.H1 = p - r • zAxis c.H0 ∧ dist3 p (origin c.H1) = |r| ∧
      origin c.H1 = origin c.H0 + c.sdist • zAxis c.H0 := by
  obtain ⟨y, hy⟩ : ∃ y, y = pdotBody (invBody H) p := ⟨_, rfl⟩
  have hyp : toGround H y = p := by rw [hy]; exact toGround_invBody hH p
  have hout : ¬ ∀ k, |y k| ≤ h k := fun hc => hp ⟨y, hc, hyp.symm⟩
  obtain ⟨hin, hcl⟩ := clamp_closest (y := y) hh
  obtain ⟨f0, hf0⟩ : ∃ f0 : Vec3, f0 = fun k => max (min (h k) (y k)) (-h k) := ⟨_, rfl⟩
  rw [← hf0] at hcl
  replace hin : ∀ k, |f0 k| ≤ h k := by rw [hf0]; exact hin
  obtain ⟨f, hf⟩ : ∃ f, f = toGround H f0 := ⟨_, rfl⟩
  have hfin : f ∈ box H h := ⟨f0, hin, hf⟩
  have hfp : p ≠ f := by rintro rfl; exact hp hfin
  have hd0 : dist3 p f ≠ 0 := (dist3_pos hfp).ne'
  have hn : norm3 ((dist3 p f)⁻¹ • (p - f)) = 1 := by
    rw [← norm3_sub]; exact norm3_unit (sub_ne_zero.mpr hfp)
  obtain ⟨R, e, hR, hz⟩ := zaligned_mkH hn (hs _)
  refine ⟨⟨dist3 p f - r, mkH R f, mkH R (p - r • ((dist3 p f)⁻¹ • (p - f)))⟩, ?_, isRigid_mkH hR, isRigid_mkH hR,
    sameAxes_mkH _ _ _, ?_, ?_, ?_, ?_, ?_, ?_, ?_⟩
  · have e1 : pdot (invBody H) p = .ok y := by rw [hy]; exact assertHom_ok hH.invBody.ishom _
    simp only [boxSphere, not_true_eq_false, if_false, hH.ishom, inv_ok hH, e1, bind, Except.bind, hout, pdot_ok hH,
      ← hf0, ← hf, norm3_sub, e, setPos_mkH]
    rfl
  · simpa only [origin_mkH] using hfin
  · simp only [origin_mkH]
    rintro x ⟨z, hz, rfl⟩
    rw [← hyp, hf, dist3_toGround hH, dist3_toGround hH]
    exact hcl z hz
  · simp only [origin_mkH]
  · simp only [zAxis_mkH, hz, origin_mkH]
  · simp only [zAxis_mkH, hz, origin_mkH]
  · rw [origin_mkH, show p - r • ((dist3 p f)⁻¹ • (p - f)) = p + (-r) • ((dist3 p f)⁻¹ • (p - f)) by
      rw [neg_smul]; abel, dist3_add_smul _ _ hn, abs_neg]
  · simp only [zAxis_mkH, hz, origin_mkH]
    ext i
    simp only [Pi.add_apply, Pi.smul_apply, Pi.sub_apply, smul_eq_mul]
    field_simp; ring

/-- C49: a pose that is not a homogeneous matrix is refused -/
theorem C49_bad_pose {H : Mat4} (hH : ¬ ishomogeneousmatrix H) (h p : Vec3) (r : ℝ) :
    boxSphere sort amin H h p r = .error .assertion := by
  simp only [boxSphere, hH, not_false_eq_true, if_true]

/-- the premises of C49 are met -/
example : IsRigid (mkH 1 ![1,0,0]) ∧ (∀ k, (0:ℝ) ≤ (![1,2,3] : Vec3) k) ∧ (![5,0,0] : Vec3) ∉ box (mkH 1 ![1,0,0]) ![1,2,3] := by
  refine ⟨isRigid_mkH IsRotation.one, fun k => by fin_cases k <;> simp, ?_⟩
  rintro ⟨y, hy, e⟩
  rw [toGround_mkH, Matrix.one_mulVec] at e
  have h0 := congrFun e 0
  have := abs_le.mp (hy 0)
  simp at h0 this
  linarith [this.2]

/-! ### C50 -/

/-- C50, the claim: for a centre in the box, the contact normal is, in ground coordinates, the outward normal of a nearest
face (`k` its axis, `s` its side) -/
def C50_Claim : Prop := ∀ (sort : Vec3 → Equiv.Perm (Fin 3)) (amin : (Fin 6 → ℝ) → Fin 6),
  (∀ z, IsArgsortAbs z (sort z)) → (∀ (x : Fin 6 → ℝ) k, x (amin x) ≤ x k) →
  ∀ (H : Mat4) (h p y : Vec3) (r : ℝ), IsRigid H → (∀ k, |y k| ≤ h k) → p = toGround H y →
    ∃ c k s, boxSphere sort amin H h p r = .ok c ∧ (s = 1 ∨ s = -1) ∧
      (∀ j t, (t = 1 ∨ t = -1) → h k - s * y k ≤ h j - t * y j) ∧
      zAxis c.H0 = dirToGround H (Pi.single k s)

lemma nearFace_inl (h p : Vec3) (k : Fin 3) : nearFace h p (e6 (.inl k)) = h k - p k := by
  simp [nearFace, tw]
lemma nearFace_inr (h p : Vec3) (k : Fin 3) : nearFace h p (e6 (.inr k)) = h k + p k := by
  simp [nearFace, tw]

lemma norm3_single (k : Fin 3) {s : ℝ} (hs : s = 1 ∨ s = -1) : norm3 (Pi.single k s) = 1 := by
  rcases hs with rfl | rfl <;> fin_cases k <;> simp [norm3, Pi.single_apply]

/-- C50, what holds for every pose: the solver succeeds; `k`, `s` is a nearest face; the contact point is on that face and
no point out of the open box is nearer to the centre; `sdist` is minus that distance minus the radius; the normal is the
outward normal of the face *in box coordinates*. -/
theorem C50_partial (hs : ∀ z, IsArgsortAbs z (sort z)) (ha : ∀ (x : Fin 6 → ℝ) k, x (amin x) ≤ x k) {H : Mat4} (hH : IsRigid H)
    {h y : Vec3} (hy : ∀ k, |y k| ≤ h k) (r : ℝ) :
    ∃ c k s, boxSphere sort amin H h (toGround H y) r = .ok c ∧ (s = 1 ∨ s = -1) ∧
      (∀ j t, (t = 1 ∨ t = -1) → h k - s * y k ≤ h j - t * y j) ∧
      IsRigid c.H0 ∧ IsRigid c.H1 ∧ SameAxes c.H0 c.H1 ∧
      origin c.H0 = toGround H (Function.update y k (s * h k)) ∧ origin c.H0 ∈ box H h ∧
      dist3 (toGround H y) (origin c.H0) = h k - s * y k ∧
      (∀ x, x ∉ openBox H h → dist3 (toGround H y) (origin c.H0) ≤ dist3 (toGround H y) x) ∧
      c.sdist = -dist3 (toGround H y) (origin c.H0) - r ∧
      zAxis c.H0 = Pi.single k s ∧ origin c.H1 = toGround H y - r • zAxis c.H0 ∧
      (rot H = 1 → zAxis c.H0 = dirToGround H (Pi.single k s) ∧
        origin c.H1 = origin c.H0 + c.sdist • zAxis c.H0) := by
  obtain ⟨k, s, hsg, hface, hnorm, hmin⟩ : ∃ k s, (s = 1 ∨ s = -1) ∧
      facePoint h y (amin (nearFace h y)) = Function.update y k (s * h k) ∧
      faceNormal (amin (nearFace h y)) = Pi.single k s ∧
      (∀ j t, (t = 1 ∨ t = -1) → h k - s * y k ≤ h j - t * y j) := by
    have h1 := ha (nearFace h y)
    generalize amin (nearFace h y) = i at h1
    obtain ⟨u, rfl⟩ := e6.surjective i
    cases u with
    | inl k =>
      refine ⟨k, 1, Or.inl rfl, by simp [facePoint], by simp [faceNormal], ?_⟩
      rintro j t (rfl | rfl)
      · have := h1 (e6 (.inl j)); rw [nearFace_inl, nearFace_inl] at this; linarith
      · have := h1 (e6 (.inr j)); rw [nearFace_inl, nearFace_inr] at this; linarith
    | inr k =>
      refine ⟨k, -1, Or.inr rfl, by simp [facePoint], by simp [faceNormal], ?_⟩
      rintro j t (rfl | rfl)
      · have := h1 (e6 (.inl j)); rw [nearFace_inr, nearFace_inl] at this; linarith
      · have := h1 (e6 (.inr j)); rw [nearFace_inr, nearFace_inr] at this; linarith
  set f0 := Function.update y k (s * h k) with hf0
  have hyk := abs_le.mp (hy k)
  have hsy : 0 ≤ h k - s * y k := by rcases hsg with rfl | rfl <;> linarith
  have hdf0 : dist3 y f0 = h k - s * y k := by
    have : dist3 y f0 ^ 2 = (h k - s * y k) ^ 2 := by
      rw [dist3_sq, hf0]
      rcases hsg with rfl | rfl <;> fin_cases k <;> simp <;> ring
    exact (sq_eq_sq₀ (dist3_nonneg _ _) hsy).mp this
  have hd : dist3 (toGround H y) (toGround H f0) = h k - s * y k := by rw [dist3_toGround hH, hdf0]
  obtain ⟨R, e, hR, hz⟩ := zaligned_mkH (norm3_single k hsg) (hs _)
  refine ⟨⟨-dist3 (toGround H y) (toGround H f0) - r, mkH R (toGround H f0), mkH R (toGround H y - r • Pi.single k s)⟩, k, s,
    ?_, hsg, hmin, isRigid_mkH hR, isRigid_mkH hR, sameAxes_mkH _ _ _, ?_, ?_, ?_, ?_, ?_, ?_, ?_, ?_⟩
  · have e1 : pdot (invBody H) (toGround H y) = .ok y := by
      have : pdot (invBody H) (toGround H y) = .ok _ := assertHom_ok hH.invBody.ishom _
      rw [this, invBody_toGround hH]
    simp only [boxSphere, not_true_eq_false, if_false, hH.ishom, inv_ok hH, e1, bind, Except.bind, if_pos hy, pdot_ok hH,
      hface, hnorm, norm3_sub, e, setPos_mkH, dist3_comm (toGround H f0) (toGround H y)]
    rfl
  · simp only [origin_mkH, hf0]
  · simp only [origin_mkH]
    refine ⟨f0, fun j => ?_, rfl⟩
    rw [hf0, Function.update_apply]
    split
    · rename_i e; subst e
      rcases hsg with rfl | rfl
      · rw [one_mul, abs_of_nonneg (by linarith)]
      · rw [neg_one_mul, abs_neg, abs_of_nonneg (by linarith)]
    · exact hy j
  · simp only [origin_mkH, hd]
  · simp only [origin_mkH]
    intro x hx
    rw [← toGround_invBody hH x, hd, dist3_toGround hH]
    set z := pdotBody (invBody H) x with hzz
    have : ¬ ∀ j, |z j| < h j := fun hc => hx ⟨z, hc, (toGround_invBody hH x).symm⟩
    push Not at this
    obtain ⟨j, hj⟩ := this
    have hyj := abs_le.mp (hy j)
    have key : (h k - s * y k) ≤ |y j - z j| := by
      rcases le_abs'.mp hj with hj | hj
      · have := hmin j (-1) (Or.inr rfl)
        rw [le_abs']; right; linarith
      · have := hmin j 1 (Or.inl rfl)
        rw [le_abs']; left; linarith
    refine key.trans ?_
    rw [← Real.sqrt_sq_eq_abs]
    unfold dist3
    apply Real.sqrt_le_sqrt
    fin_cases j <;> simp <;> nlinarith [sq_nonneg (y 0 - z 0), sq_nonneg (y 1 - z 1), sq_nonneg (y 2 - z 2)]
  · simp only [origin_mkH]
  · simp only [zAxis_mkH, hz]
  · simp only [zAxis_mkH, hz, origin_mkH]
  · intro hr1
    have hHe : H = mkH 1 (pos H) := by rw [← hr1]; exact hH.eq_mkH
    constructor
    · rw [hHe, dirToGround_mkH, zAxis_mkH, hz, Matrix.one_mulVec]
    · simp only [origin_mkH, zAxis_mkH, hz]
      rw [hd, hHe, toGround_mkH, toGround_mkH, Matrix.one_mulVec, Matrix.one_mulVec, hf0]
      ext j
      simp only [Pi.add_apply, Pi.smul_apply, Pi.sub_apply, smul_eq_mul, Function.update_apply, Pi.single_apply]
      split
      · rename_i e; subst e
        rcases hsg with rfl | rfl <;> ring
      · ring

lemma rotz90 : IsRigid (mkH !![0, -1, 0; 1, 0, 0; 0, 0, 1] 0) := by
  apply isRigid_mkH
  apply IsRotation.of_orth
  · ext i j; fin_cases i <;> fin_cases j <;> simp [Matrix.mul_apply, Fin.sum_univ_three]
  · simp [Matrix.det_fin_three]

lemma exists_argmin : ∃ amin : (Fin 6 → ℝ) → Fin 6, ∀ (x : Fin 6 → ℝ) k, x (amin x) ≤ x k := by
  have : ∀ x : Fin 6 → ℝ, ∃ i, ∀ k, x i ≤ x k := fun x => Finite.exists_min x
  choose f hf using this
  exact ⟨f, hf⟩

/-- C50 is false: for a box turned by 90° about z, the normal is not the outward normal of a nearest face. -/
theorem C50_false : ¬ C50_Claim := by
  intro hc
  obtain ⟨sort, hs⟩ := C48_sort_exists
  obtain ⟨amin, ha⟩ := exists_argmin
  have hy : ∀ k, |(0 : Vec3) k| ≤ (![1, 2, 2] : Vec3) k := by intro k; fin_cases k <;> simp
  obtain ⟨c, k, s, e, hsg, hmin, hz⟩ := hc sort amin hs ha _ ![1, 2, 2] _ 0 0 rotz90 hy rfl
  obtain ⟨c', k', s', e', hsg', hmin', -, -, -, -, -, -, -, -, hz', -⟩ := C50_partial hs ha rotz90 hy 0
  rw [e] at e'
  obtain rfl := Except.ok.inj e'
  have hk : k = 0 := by
    have := hmin 0 1 (Or.inl rfl)
    fin_cases k
    · rfl
    · simp at this
    · simp at this
  have hk' : k' = 0 := by
    have := hmin' 0 1 (Or.inl rfl)
    fin_cases k'
    · rfl
    · simp at this
    · simp at this
  subst hk hk'
  rw [hz', dirToGround_mkH] at hz
  have := congrFun hz 0
  simp [Matrix.mulVec, dotProduct, Fin.sum_univ_three] at this
  rcases hsg' with rfl | rfl <;> norm_num at this

/-! ### C51 -/

/-- What the documentation of `Plane` and of `_plane_sphere_collision` promises. -/
def C51_Good (H : Mat4) (n : Vec3) (d : ℝ) (y : Vec3) (r : ℝ) (c : Collision) : Prop :=
  IsRigid c.H0 ∧ IsRigid c.H1 ∧ c.sdist = n ⬝ᵥ y + d - r ∧ origin c.H0 ∈ plane H n d ∧
  zAxis c.H0 = dirToGround H n ∧ dist3 (toGround H y) (origin c.H1) = r ∧
  origin c.H1 = origin c.H0 + c.sdist • zAxis c.H0

def C51_Claim : Prop := ∀ (sort : Vec3 → Equiv.Perm (Fin 3)), (∀ z, IsArgsortAbs z (sort z)) →
  ∀ (H : Mat4) (n : Vec3) (d : ℝ) (y : Vec3) (r : ℝ), IsRigid H → norm3 n = 1 → 0 ≤ r →
    ∃ c, planeSphere sort H n d (toGround H y) r = .ok c ∧ C51_Good H n d y r c

lemma planeSphere_ok (hs : ∀ z, IsArgsortAbs z (sort z)) {H : Mat4} (hH : IsRigid H) {n : Vec3} (hn : norm3 n = 1)
    (d : ℝ) (y : Vec3) {r : ℝ} (hr : 0 ≤ r) : ∃ R, IsRotation R ∧ (fun i => R i 2) = n ∧
    planeSphere sort H n d (toGround H y) r = .ok ⟨n ⬝ᵥ y - d - r, mkH R (y - (n ⬝ᵥ y - d) • n),
      mkH R (y - (Real.sign (n ⬝ᵥ y - d - r) * r) • n)⟩ := by
  obtain ⟨R, e, hR, hz⟩ := zaligned_mkH hn (hs _)
  refine ⟨R, hR, hz, ?_⟩
  have e1 : pdot (invBody H) (toGround H y) = .ok y := by
    have : pdot (invBody H) (toGround H y) = .ok _ := assertHom_ok hH.invBody.ishom _
    rw [this, invBody_toGround hH]
  simp only [planeSphere, not_true_eq_false, if_false, hH.ishom, hn, ne_eq, not_lt.mpr hr, inv_ok hH, e1, bind, Except.bind, e, setPos_mkH]
  rfl

/-- C51, what holds for every pose: `sdist` is the signed distance of the sphere to the plane `n·x = d` (opposite sign of
`d`), for every position of the centre, in all cases. -/
theorem C51_sdist_partial (hs : ∀ z, IsArgsortAbs z (sort z)) {H : Mat4} (hH : IsRigid H) {n : Vec3} (hn : norm3 n = 1)
    (d : ℝ) (y : Vec3) {r : ℝ} (hr : 0 ≤ r) : ∃ c, planeSphere sort H n d (toGround H y) r = .ok c ∧
      c.sdist = n ⬝ᵥ y + (-d) - r ∧ (∀ x ∈ plane H n (-d), |c.sdist + r| ≤ dist3 (toGround H y) x) := by
  obtain ⟨R, hR, hz, e⟩ := planeSphere_ok hs hH hn d y hr
  refine ⟨_, e, by simp only; ring, ?_⟩
  rintro x ⟨z, hz, rfl⟩
  rw [dist3_toGround hH]
  have e2 : n ⬝ᵥ y - d - r + r = n ⬝ᵥ (y - z) := by rw [dotProduct_sub]; linarith
  simp only [e2]
  apply Real.abs_le_sqrt
  have hn2 := norm3_dot_self hn
  simp only [dotProduct, Fin.sum_univ_three, Pi.sub_apply]
  set a := y 0 - z 0
  set b := y 1 - z 1
  set c := y 2 - z 2
  nlinarith [sq_nonneg (n 0 * b - n 1 * a), sq_nonneg (n 0 * c - n 2 * a), sq_nonneg (n 1 * c - n 2 * b)]

/-- C51, full geometry: for a plane drawn in a frame that coincides with the ground, not penetrated, and with the opposite
sign convention for `d`.  Missing: other poses, `sdist ≤ 0`, the documented sign of `d`. -/
theorem C51_partial (hs : ∀ z, IsArgsortAbs z (sort z)) {n : Vec3} (hn : norm3 n = 1)
    (d : ℝ) (y : Vec3) {r : ℝ} (hr : 0 ≤ r) (hpos : 0 < n ⬝ᵥ y - d - r ∨ r = 0) :
    ∃ c, planeSphere sort 1 n d y r = .ok c ∧ C51_Good 1 n (-d) y r c ∧
      ∀ x ∈ plane 1 n (-d), dist3 y (origin c.H0) ≤ dist3 y x := by
  have h1 : (1 : Mat4) = mkH 1 0 := by
    ext i j; fin_cases i <;> fin_cases j <;> simp [mkH]
  have tg : ∀ y, toGround 1 y = y := by intro y; rw [h1, toGround_mkH]; simp
  obtain ⟨R, hR, hz, e⟩ := planeSphere_ok hs isRigid_one hn d y hr
  rw [tg] at e
  have hn2 := norm3_dot_self hn
  have hsr : Real.sign (n ⬝ᵥ y - d - r) * r = r := by
    rcases hpos with h | h
    · rw [Real.sign_of_pos h, one_mul]
    · rw [h, mul_zero]
  refine ⟨_, e, ⟨isRigid_mkH hR, isRigid_mkH hR, by simp only; ring, ?_, ?_, ?_, ?_⟩, ?_⟩
  · simp only [origin_mkH]
    refine ⟨_, ?_, (tg _).symm⟩
    simp only [dotProduct, Fin.sum_univ_three, Pi.sub_apply, Pi.smul_apply, smul_eq_mul]
    linear_combination (-(n 0 * y 0 + n 1 * y 1 + n 2 * y 2 - d)) * hn2
  · simp only [zAxis_mkH, hz]
    rw [h1, dirToGround_mkH, Matrix.one_mulVec]
  · simp only [origin_mkH, hsr]
    rw [tg, show y - r • n = y + (-r) • n by rw [neg_smul]; abel, dist3_add_smul _ _ hn, abs_neg, abs_of_nonneg hr]
  · simp only [origin_mkH, zAxis_mkH, hz, hsr]
    ext i
    simp only [Pi.add_apply, Pi.smul_apply, Pi.sub_apply, smul_eq_mul]
    ring
  · intro x hx
    obtain ⟨c', e', -, h⟩ := C51_sdist_partial hs isRigid_one hn d y hr
    rw [tg, e] at e'
    obtain rfl := Except.ok.inj e'
    have := h x hx
    rw [tg] at this
    simp only [origin_mkH]
    rw [show y - (n ⬝ᵥ y - d) • n = y + (-(n ⬝ᵥ y - d)) • n by rw [neg_smul]; abel, dist3_add_smul _ _ hn, abs_neg]
    simpa using this

/-- refused arguments -/
theorem C51_rejects (H : Mat4) (n : Vec3) (d : ℝ) (p : Vec3) (r : ℝ)
    (h : ¬ ishomogeneousmatrix H ∨ norm3 n ≠ 1 ∨ r < 0) : planeSphere sort H n d p r = .error .assertion := by
  unfold planeSphere
  by_cases h1 : ishomogeneousmatrix H
  · by_cases h2 : norm3 n = 1
    · have h3 : r < 0 := by rcases h with h | h | h <;> [exact absurd h1 h; exact absurd h2 h; exact h]
      rw [if_neg (not_not.mpr h1), if_neg (not_not.mpr h2), if_pos h3]
    · rw [if_neg (not_not.mpr h1), if_pos h2]
  · rw [if_pos h1]

lemma norm3_e2 : norm3 ![0,0,1] = 1 := by simp [norm3]

/-- C51 is false for the documented plane equation: already for a horizontal plane in the ground frame, away from it. -/
theorem C51_offset_false : ¬ C51_Claim := by
  intro hc
  obtain ⟨sort, hs⟩ := C48_sort_exists
  obtain ⟨c, e, h⟩ := hc sort hs 1 ![0,0,1] 1 ![0,0,5] 1 isRigid_one norm3_e2 zero_le_one
  obtain ⟨c', e', h', -⟩ := C51_sdist_partial hs isRigid_one norm3_e2 1 ![0,0,5] zero_le_one
  rw [e] at e'
  obtain rfl := Except.ok.inj e'
  have := h.2.2.1
  rw [h'] at this
  norm_num at this

/-- … and false, with the convention `n·x = d`, for a plane in a frame moved up: the contact point is not on the plane. -/
theorem C51_pose_false : ¬ ∀ (sort : Vec3 → Equiv.Perm (Fin 3)), (∀ z, IsArgsortAbs z (sort z)) →
    ∀ (H : Mat4) (n : Vec3) (d : ℝ) (y : Vec3) (r : ℝ), IsRigid H → norm3 n = 1 → 0 ≤ r →
    0 < n ⬝ᵥ y - d - r → ∃ c, planeSphere sort H n d (toGround H y) r = .ok c ∧ C51_Good H n (-d) y r c := by
  intro hc
  obtain ⟨sort, hs⟩ := C48_sort_exists
  have hH : IsRigid (mkH 1 ![0,0,1]) := isRigid_mkH IsRotation.one
  obtain ⟨c, e, h⟩ := hc sort hs _ ![0,0,1] 0 ![0,0,5] 1 hH norm3_e2 zero_le_one (by simp [dotProduct, Fin.sum_univ_three])
  obtain ⟨R, hR, hz, e'⟩ := planeSphere_ok hs hH norm3_e2 0 ![0,0,5] zero_le_one
  rw [e] at e'
  obtain rfl := Except.ok.inj e'
  obtain ⟨z, hz1, hz2⟩ := h.2.2.2.1
  simp only [origin_mkH, toGround_mkH, Matrix.one_mulVec] at hz2
  have := congrFun hz2 2
  simp [dotProduct, Fin.sum_univ_three] at this hz1
  rw [hz1] at this; norm_num at this

/-- … and false, with the convention `n·x = d` and a frame that coincides with the ground, for a penetrating sphere: the
two contact points are not `sdist` apart along the normal. -/
theorem C51_side_false : ¬ ∀ (sort : Vec3 → Equiv.Perm (Fin 3)), (∀ z, IsArgsortAbs z (sort z)) →
    ∀ (n : Vec3) (d : ℝ) (y : Vec3) (r : ℝ), norm3 n = 1 → 0 ≤ r →
    ∃ c, planeSphere sort 1 n d (toGround 1 y) r = .ok c ∧ C51_Good 1 n (-d) y r c := by
  intro hc
  obtain ⟨sort, hs⟩ := C48_sort_exists
  obtain ⟨c, e, h⟩ := hc sort hs ![0,0,1] 0 ![0,0,1/2] 1 norm3_e2 zero_le_one
  obtain ⟨R, hR, hz, e'⟩ := planeSphere_ok hs isRigid_one norm3_e2 0 ![0,0,1/2] zero_le_one
  rw [e] at e'
  obtain rfl := Except.ok.inj e'
  have := h.2.2.2.2.2.2
  simp only [origin_mkH, zAxis_mkH, hz] at this
  have h2 := congrFun this 2
  have hs' : Real.sign ((![0, 0, 1] : Vec3) ⬝ᵥ ![0, 0, 1 / 2] - 0 - 1) = -1 := by
    apply Real.sign_of_neg; simp [dotProduct, Fin.sum_univ_three]; norm_num
  simp only [hs'] at h2
  simp [dotProduct, Fin.sum_univ_three] at h2
  norm_num at h2

/-- the premises of C51_partial are met: a unit sphere 4 above the plane z = 1 -/
example : norm3 ![0,0,1] = 1 ∧ (0:ℝ) < (![0,0,1] : Vec3) ⬝ᵥ ![3,2,5] - 1 - 1 := by
  refine ⟨norm3_e2, ?_⟩
  simp [dotProduct, Fin.sum_univ_three]; norm_num

/-! ### C52 -/

/-- the shapes given to the solver -/
def Spec.reorder {α : Type} (swap : Bool) (a b : α) : α × α := if swap then (b, a) else (a, b)

/-- the choice does not depend on the order of the arguments: both orders fail, or both succeed with the same solver, and
the solver gets the shapes in the same order (when they are of different classes) -/
def Spec.OrderFree (a b : ShapeKind) : Prop :=
  match chooseSolver a b, chooseSolver b a with
  | .ok (s, w), .ok (s', w') => s = s' ∧ reorder w a b = reorder w' b a
  | .error e, .error e' => e = e'
  | _, _ => False

def C52_Claim : Prop := ∀ a b, OrderFree a b

/-- C52 is false: (Point, Box) raises `NotImplementedError` although (Box, Point) is supported. -/
theorem C52_false : ¬ C52_Claim := fun h => h .point .box

/-- C52 holds for every pair but (Point, Box). -/
theorem C52_partial (a b : ShapeKind) (h : ¬ ((a = .point ∧ b = .box) ∨ (a = .box ∧ b = .point))) : OrderFree a b := by
  cases a <;> cases b <;> simp [OrderFree, chooseSolver, reorder] at h ⊢

/-- C52: the exact condition. -/
theorem C52_iff_partial (a b : ShapeKind) : OrderFree a b ↔ ¬ ((a = .point ∧ b = .box) ∨ (a = .box ∧ b = .point)) := by
  cases a <;> cases b <;> simp [OrderFree, chooseSolver, reorder]

/-- C52: the shapes are handed to the chosen solver in the order its assertions expect; the only exception raised is
`NotImplementedError`. -/
theorem C52_expected (a b : ShapeKind) :
    (∃ s w, chooseSolver a b = .ok (s, w) ∧ reorder w a b = s.expects) ∨ chooseSolver a b = .error .notImplemented := by
  cases a <;> cases b <;> simp [chooseSolver, reorder, Solver.expects]

/-- C52: the documented pairs are supported, in the documented order and in the other -/
theorem C52_documented : ∀ x ∈ [(ShapeKind.sphere, ShapeKind.sphere), (.sphere, .point), (.sphere, .plane), (.sphere, .box),
    (.point, .plane)], (∃ r, chooseSolver x.1 x.2 = .ok r) ∧ ∃ r, chooseSolver x.2 x.1 = .ok r := by
  intro x hx
  simp only [List.mem_cons, List.not_mem_nil, or_false] at hx
  rcases hx with rfl | rfl | rfl | rfl | rfl <;> simp [chooseSolver]

/-! ### C53 -/

/-- `choose_solver` accepts the two shapes in this order -/
def Spec.Supported (a b : ShapeObj) : Prop := ∃ r, chooseSolver a.kind b.kind = .ok r

/-- the contact `c` is between `a` and `b`, in either order -/
def Spec.Between (c : ShapeObj × ShapeObj) (a b : ShapeObj) : Prop := c = (a, b) ∨ c = (b, a)

lemma mem_contactsWith {s : ShapeObj} {l : List ShapeObj} {c : ShapeObj × ShapeObj} :
    c ∈ contactsWith s l ↔ ∃ b ∈ l, s.body ≠ b.body ∧ ∃ r, chooseSolver s.kind b.kind = .ok r ∧ c = reorder r.2 s b := by
  unfold contactsWith
  rw [List.mem_filterMap]
  refine exists_congr fun b => and_congr_right fun _ => ?_
  by_cases h : s.body = b.body
  · simp [h]
  · simp only [h, if_false, ne_eq, not_false_eq_true, true_and]
    cases chooseSolver s.kind b.kind with
    | error e => simp
    | ok r =>
      obtain ⟨a, w⟩ := r
      constructor
      · intro h; exact ⟨_, rfl, (Option.some.inj h).symm⟩
      · rintro ⟨r, h1, h2⟩; obtain rfl := Except.ok.inj h1; rw [h2]; rfl

/-- C53: a contact is returned iff it is between two shapes, one before the other in the list, of different bodies and
supported in that order. -/
theorem C53_mem (l : List ShapeObj) (c : ShapeObj × ShapeObj) :
    c ∈ allContacts l ↔ ∃ i j : Fin l.length, i < j ∧ (l.get i).body ≠ (l.get j).body ∧
      ∃ r, chooseSolver (l.get i).kind (l.get j).kind = .ok r ∧ c = reorder r.2 (l.get i) (l.get j) := by
  induction l with
  | nil => simp only [allContacts, List.not_mem_nil, false_iff]; rintro ⟨i, -⟩; exact i.elim0
  | cons s l ih =>
    rw [allContacts, List.mem_append, ih, mem_contactsWith]
    constructor
    · rintro (⟨b, hb, h1, r, h2, h3⟩ | ⟨i, j, hij, h⟩)
      · obtain ⟨j, rfl⟩ := List.get_of_mem hb
        exact ⟨0, j.succ, Fin.succ_pos j, h1, r, h2, h3⟩
      · exact ⟨i.succ, j.succ, Fin.succ_lt_succ_iff.mpr hij, h⟩
    · rintro ⟨i, j, hij, h1, r, h2, h3⟩
      cases j using Fin.cases with
      | zero => exact absurd hij (Fin.not_lt_zero i)
      | succ j =>
        cases i using Fin.cases with
        | zero => exact Or.inl ⟨l.get j, List.get_mem _ _, h1, r, h2, h3⟩
        | succ i => exact Or.inr ⟨i, j, Fin.succ_lt_succ_iff.mp hij, h1, r, h2, h3⟩

lemma between_iff {r : Bool} {a b x y : ShapeObj} : Between (reorder r a b) x y ↔ (a = x ∧ b = y) ∨ (a = y ∧ b = x) := by
  cases r <;> simp [Between, reorder] <;> tauto

open Classical in
lemma count_reorder (x y s : ShapeObj) (l : List ShapeObj) :
    (contactsWith s l).countP (fun c => Between c x y) =
      l.countP fun b => s.body ≠ b.body ∧ Supported s b ∧ ((s = x ∧ b = y) ∨ (s = y ∧ b = x)) := by
  unfold contactsWith
  induction l with
  | nil => rfl
  | cons b l ih =>
    rw [List.countP_cons, List.filterMap_cons]
    by_cases h : s.body = b.body
    · rw [if_pos h, ← ih]; simp [h]
    · simp only [h, if_false]
      rcases hc : chooseSolver s.kind b.kind with e | ⟨f, w⟩
      · simp only
        have : ¬ Supported s b := by rintro ⟨r, hr⟩; rw [hc] at hr; cases hr
        rw [← ih]; simp [this]
      · simp only
        have hsup : Supported s b := ⟨_, hc⟩
        rw [List.countP_cons, ih]
        congr 1
        have : Between (if w then (b, s) else (s, b)) x y ↔ _ := between_iff (r := w)
        simp only [this, ne_eq, h, not_false_eq_true, hsup, true_and]

open Classical in
/-- C53: each unordered pair of registered shapes is in contact at most once, and exactly once when the two are of
different bodies and supported in registration order. -/
theorem C53_once {l : List ShapeObj} (hl : l.Nodup) {i j : Fin l.length} (hij : i < j) :
    (allContacts l).countP (fun c => Between c (l.get i) (l.get j)) =
      if (l.get i).body ≠ (l.get j).body ∧ Supported (l.get i) (l.get j) then 1 else 0 := by
  induction l with
  | nil => exact i.elim0
  | cons s l ih =>
    rw [allContacts, List.countP_append, count_reorder]
    obtain ⟨hs, hl⟩ := List.nodup_cons.mp hl
    cases j using Fin.cases with
    | zero => exact absurd hij (Fin.not_lt_zero i)
    | succ j =>
      have hj : l.get j ∈ l := List.get_mem _ _
      cases i using Fin.cases with
      | zero =>
        have h0 : (allContacts l).countP (fun c => Between c s (l.get j)) = 0 := by
          rw [List.countP_eq_zero]
          intro c hc
          obtain ⟨i, k, -, -, r, -, rfl⟩ := (C53_mem l c).mp hc
          simp only [between_iff, decide_eq_true_eq]
          rintro (⟨h, -⟩ | ⟨-, h⟩)
          · exact hs (h ▸ List.get_mem _ _)
          · exact hs (h ▸ List.get_mem _ _)
        change _ + (allContacts l).countP (fun c => Between c s (l.get j)) = _
        rw [h0, add_zero]
        change l.countP (fun b => s.body ≠ b.body ∧ Supported s b ∧ ((s = s ∧ b = l.get j) ∨ (s = l.get j ∧ b = s))) =
          if s.body ≠ (l.get j).body ∧ Supported s (l.get j) then 1 else 0
        have hne : s ≠ l.get j := fun e => hs (e ▸ hj)
        have hcnt : l.count (l.get j) = 1 := List.count_eq_one_of_mem hl hj
        by_cases hc : s.body ≠ (l.get j).body ∧ Supported s (l.get j)
        · rw [if_pos hc, ← hcnt, List.count]
          apply List.countP_congr
          intro b _
          simp only [true_and, hne, false_and, or_false, decide_eq_true_eq, beq_iff_eq]
          constructor
          · exact fun h => h.2.2
          · rintro rfl; exact ⟨hc.1, hc.2, rfl⟩
        · rw [if_neg hc, List.countP_eq_zero]
          intro b _
          simp only [true_and, hne, false_and, or_false, decide_eq_true_eq]
          rintro ⟨h1, h2, rfl⟩; exact hc ⟨h1, h2⟩
      | succ i =>
        have hi : l.get i ∈ l := List.get_mem _ _
        have h0 : l.countP (fun b => s.body ≠ b.body ∧ Supported s b ∧
            ((s = (s :: l).get i.succ ∧ b = (s :: l).get j.succ) ∨ (s = (s :: l).get j.succ ∧ b = (s :: l).get i.succ))) = 0 := by
          rw [List.countP_eq_zero]
          intro b _
          simp only [decide_eq_true_eq]
          rintro ⟨-, -, ⟨h, -⟩ | ⟨h, -⟩⟩
          · exact hs (h ▸ hi)
          · exact hs (h ▸ hj)
        rw [h0, zero_add]
        exact ih hl (Fin.succ_lt_succ_iff.mp hij)

/-- C53: no contact joins a body to itself, nor a shape to itself. -/
theorem C53_other_body (l : List ShapeObj) {c : ShapeObj × ShapeObj} (h : c ∈ allContacts l) : c.1.body ≠ c.2.body := by
  obtain ⟨i, j, -, h1, ⟨f, w⟩, -, rfl⟩ := (C53_mem l c).mp h
  cases w
  · exact h1
  · exact h1.symm

/-- three shapes on three bodies: two spheres and a point; three contacts -/
example : (allContacts [⟨0, .sphere, 0⟩, ⟨1, .point, 1⟩, ⟨2, .sphere, 2⟩, ⟨3, .box, 2⟩]).map (fun c => (c.1.id, c.2.id)) =
    [(0, 1), (0, 2), (3, 0), (2, 1)] := by decide

end Arboris
