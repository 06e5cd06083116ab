import Verif.Proofs.Web
import Verif.Props.UrdfLoad
import Verif.Spec.Icub

/-! # Lemmas about robots described by tables of shapes -/

namespace Arboris
open Graph Spec Build Matrix

/-! ### masses -/

/-- dimensions of a solid -/
def Spec.DimsOK (d : Dims) : Prop := (d.length = 1 ∨ d.length = 2 ∨ d.length = 3) ∧ ∀ x ∈ d, 0 < x

lemma rigidMass_moved {J : Mat3} {m : ℝ} {M : Mat6} {H : Mat4} (hr : IsRigidMass M m 0 J) (hH : IsRigid H) :
    IsRigidMass (transportBody M (invBody H)) m (pos H) (rot H * J * (rot H)ᵀ - m • (skew (pos H) * skew (pos H))) := by
  have hc : M = blk J 0 0 (m • 1) := by rw [hr.eq, skew_zero]; simp
  obtain ⟨R, p, hR, rfl⟩ := isRigid_iff.mp hH
  rw [rot_mkH, pos_mkH]
  refine ⟨?_, ?_⟩
  · simp only [Matrix.transpose_sub, Matrix.transpose_mul, Matrix.transpose_transpose, hr.symm, Matrix.transpose_smul, skew_transpose,
      neg_mul_neg, Matrix.mul_assoc]
  · rw [hc, transportBody, invBody, rot_mkH, pos_mkH, adjointBody_mkH]
    simp only [blk_transpose, blk_mul, blk_inj]
    have e1 : skew (-(Rᵀ *ᵥ p)) = -(Rᵀ * skew p * R) := by
      rw [skew_neg, hR.transpose.skew_mulVec, Matrix.transpose_transpose]
    simp only [Matrix.transpose_transpose, Matrix.transpose_zero, Matrix.mul_zero, Matrix.zero_mul, add_zero, zero_add, e1,
      Matrix.transpose_mul, Matrix.transpose_neg, skew_transpose, Matrix.neg_mul, Matrix.mul_neg, neg_neg]
    have c1 : ∀ A : Mat3, R * (Rᵀ * A) = A := fun A => by rw [← Matrix.mul_assoc, hR.1, Matrix.one_mul]
    simp only [Matrix.mul_assoc, Matrix.mul_smul, Matrix.smul_mul, Matrix.mul_one, Matrix.one_mul, c1, hR.1]
    refine ⟨?_, trivial, trivial, trivial⟩
    rw [neg_zero, add_zero, sub_eq_add_neg]

lemma icubSolid_ok {d : Dims} (hd : DimsOK d) {m : ℝ} (hm : 0 < m) :
    ∃ M, icubSolid d m = .ok M ∧ IsRigidMass M m 0 (solidInertia d m) ∧ SymPD M := by
  obtain ⟨hl, hp⟩ := hd
  rcases d with _ | ⟨x, _ | ⟨y, _ | ⟨z, _ | ⟨t, l⟩⟩⟩⟩
  · simp at hl
  · have h0 : 0 < x := hp x (by simp)
    refine ⟨_, rfl, ?_, ?_⟩
    · have := diag6_rigid (2 * m * x ^ 2 / 5) (2 * m * x ^ 2 / 5) (2 * m * x ^ 2 / 5) m
      exact this
    · exact diag6_pd (by positivity) (by positivity) (by positivity) hm
  · have h0 : 0 < x := hp x (by simp)
    have h1 : 0 < y := hp y (by simp)
    refine ⟨_, rfl, ?_, ?_⟩
    · have := diag6_rigid (m * (y ^ 2 / 4 + x ^ 2 / 12)) (m * (y ^ 2 / 4 + x ^ 2 / 12)) (m * y ^ 2 / 2) m
      have e : m * (y ^ 2 / 4 + x ^ 2 / 12) = m * (3 * y ^ 2 + x ^ 2) / 12 := by ring
      simp only [massCylinder, solidInertia]
      rw [← e]; exact this
    · simp only [massCylinder]
      exact diag6_pd (by positivity) (by positivity) (by positivity) hm
  · have h0 : 0 < x := hp x (by simp)
    have h1 : 0 < y := hp y (by simp)
    have h2 : 0 < z := hp z (by simp)
    refine ⟨_, rfl, ?_, ?_⟩
    · have := diag6_rigid (m / 3 * (y ^ 2 + z ^ 2)) (m / 3 * (x ^ 2 + z ^ 2)) (m / 3 * (x ^ 2 + y ^ 2)) m
      have e : ∀ a : ℝ, m * a / 3 = m / 3 * a := fun a => by ring
      simp only [massBox, solidInertia, e]
      exact this
    · simp only [massBox]
      exact diag6_pd (by positivity) (by positivity) (by positivity) hm
  · simp at hl

/-- mass `m`, first moment `s`, inertia `J` -/
structure Lump (M : Mat6) (m : ℝ) (s : Vec3) (J : Mat3) : Prop where
  symm : Jᵀ = J
  eq : M = blk J (skew s) (-(skew s)) (m • 1)

lemma Lump.add {M N : Mat6} {m k : ℝ} {s t : Vec3} {I J : Mat3} (h : Lump M m s I) (h' : Lump N k t J) : Lump (M + N) (m + k) (s + t) (I + J) := by
  refine ⟨by rw [Matrix.transpose_add, h.symm, h'.symm], ?_⟩
  rw [h.eq, h'.eq, blk_add, skew_add, neg_add, add_smul]

lemma Lump.zero : Lump 0 0 0 0 := by
  refine ⟨by simp, ?_⟩
  rw [skew_zero, neg_zero, zero_smul]
  ext i j; fin_cases i <;> fin_cases j <;> simp [blk, e6, finSumFinEquiv, Fin.addCases]

lemma lump_of {M : Mat6} {m : ℝ} {c : Vec3} {I : Mat3} (h : IsRigidMass M m c I) : Lump M m (m • c) I :=
  ⟨h.symm, by rw [h.eq, skew_smul]⟩

lemma Lump.rigid {M : Mat6} {m : ℝ} {s : Vec3} {J : Mat3} (h : Lump M m s J) (hm : m ≠ 0) : IsRigidMass M m (m⁻¹ • s) J := by
  refine ⟨h.symm, ?_⟩
  rw [h.eq, ← skew_smul, smul_smul, mul_inv_cancel₀ hm, one_smul]

lemma partsMass_pos {l : List (Dims × ℝ × Mat4)} (h : ∀ d ∈ l, 0 < d.2.1) (hn : l ≠ []) : 0 < partsMass l := by
  induction l with
  | nil => exact absurd rfl hn
  | cons d l ih =>
    have h1 := h d List.mem_cons_self
    by_cases hl : l = []
    · subst hl; simpa [partsMass] using h1
    · have := ih (fun x hx => h x (List.mem_cons_of_mem _ hx)) hl
      simp only [partsMass, List.map_cons, List.sum_cons] at this ⊢
      linarith

section
variable {S : RS} {F : Forest (FrameRef × ℕ × FrameRef) ℕ}

lemma icubMass_runs (b : ℕ) (data : List (Dims × ℝ × Mat4)) : ∀ {S : RS} (mass : Mat6), Good S F →
    (∀ d ∈ data, DimsOK d.1 ∧ 0 < d.2.1 ∧ IsRigid d.2.2) → SymPSD mass →
    ∃ S' M, Runs (icubMass b mass data) S (mass + M) S' ∧ Good S' F ∧ Keeps S S' ∧ KeepsFresh S S' [] [] ∧
      S'.nb = S.nb ∧ S'.nj = S.nj ∧ S'.nsh = S.nsh ∧ S'.w = S.w ∧ Lump M (partsMass data) (partsMoment data) (partsInertia data) ∧
      SymPSD M ∧ (data ≠ [] → SymPD M) := by
  induction data with
  | nil =>
    intro S mass hg _ _
    exact ⟨S, 0, by rw [add_zero]; exact Runs.pure _ _, hg, .refl S, .refl S, rfl, rfl, rfl, rfl, Lump.zero, ⟨by simp, by simp⟩, fun h => absurd rfl h⟩
  | cons d data ih =>
    intro S mass hg hd hp
    obtain ⟨h1, h2, h3⟩ := hd d List.mem_cons_self
    obtain ⟨S1, r1, g1, k1, f1, _, _, _, b1, j1, s1, sh1, w1⟩ := newSub_runs hg b h3.ishom none
    obtain ⟨M0, e0, hr0, hp0⟩ := icubSolid_ok h1 h2
    have hi := h3.invBody
    have e1 : inv d.2.2 = .ok (invBody d.2.2) := assertHom_ok h3.ishom _
    have e2 : transport M0 (invBody d.2.2) = .ok (transportBody M0 (invBody d.2.2)) := C14_succeeds (ismass_of hr0 hp0) hi
    have hr1 := rigidMass_moved hr0 h3
    have hp1 := C14_symPD hp0 hi
    have hps : SymPSD (transportBody M0 (invBody d.2.2)) := ⟨hp1.1, fun x => by
      by_cases hx : x = 0
      · subst hx; simp
      · exact (hp1.2 x hx).le⟩
    have hadd : ∀ {A B : Mat6}, SymPSD A → SymPSD B → SymPSD (A + B) := fun ha hb =>
      ⟨by rw [Matrix.transpose_add, ha.1, hb.1], fun x => by rw [Matrix.add_mulVec, dotProduct_add]; exact add_nonneg (ha.2 x) (hb.2 x)⟩
    obtain ⟨S', M, r2, g2, k2, f2, b2, j2, sh2, w2, hL, hM1, hM2⟩ := ih (mass + transportBody M0 (invBody d.2.2)) g1
      (fun x hx => hd x (List.mem_cons_of_mem _ hx)) (hadd hp hps)
    refine ⟨S', transportBody M0 (invBody d.2.2) + M, ?_, g2, k1.trans k2, f1.trans f2, b2.trans b1, j2.trans j1, sh2.trans sh1, w2.trans w1, ?_,
      hadd hps hM1, fun _ => ?_⟩
    · rw [← add_assoc]
      exact r1.bind ((Runs.liftE e0 S1).bind ((Runs.liftE e1 S1).bind ((Runs.liftE e2 S1).bind r2)))
    · have := (lump_of hr1).add hL
      simpa only [partsMass, partsMoment, partsInertia, List.map_cons, List.sum_cons] using this
    · refine ⟨(hadd hps hM1).1, fun x hx => ?_⟩
      rw [Matrix.add_mulVec, dotProduct_add]
      exact add_pos_of_pos_of_nonneg (hp1.2 x hx) (hM1.2 x)

lemma Spec.HasParts.keep {S S' : RS} (hk : Keeps S S') {b name parts} (hb : b < S.nb) (h : HasParts S b name parts) : HasParts S' b name parts := by
  obtain ⟨e1, e2⟩ := hk.body b hb
  exact ⟨by rw [e2]; exact h.name, by rw [e1]; exact h.mass, by rw [e1]; exact h.pd⟩

/-- rows that describe bodies -/
def Spec.PartsOK (x : String × List (Dims × ℝ × Mat4)) : Prop := x.2 ≠ [] ∧ ∀ d ∈ x.2, DimsOK d.1 ∧ 0 < d.2.1 ∧ IsRigid d.2.2

lemma icubBody_runs (hg : Good S F) {x : String × List (Dims × ℝ × Mat4)} (hx : PartsOK x) :
    ∃ S', Runs (icubBody x) S (x.1, S.nb) S' ∧ Good S' F ∧ Keeps S S' ∧ KeepsFresh S S' [] [] ∧
      S'.nb = S.nb + 1 ∧ S'.nj = S.nj ∧ S'.nsh = S.nsh ∧ FreshBody S'.w S.nb ∧ HasParts S' S.nb x.1 x.2 := by
  obtain ⟨S1, r1, g1, k1, f1, fb, m1, nm1, b1, j1, s1, sh1, _⟩ := newBody_runs hg (some x.1) (mass := none) (.inl rfl)
  obtain ⟨S2, M, r2, g2, k2, f2, b2, j2, sh2, w2, hL, _, hM⟩ := icubMass_runs S.nb x.2 0 g1 hx.2 ⟨by simp, by simp⟩
  rw [zero_add] at r2
  let S3 : RS := { S2 with mass := Function.update S2.mass S.nb M }
  have r3 : Runs (setMass S.nb M) S2 () S3 := rfl
  have g3 : Good S3 F := by
    refine ⟨g2.tree, g2.ground, g2.bodies, ?_, g2.joints, g2.ndof⟩
    intro x hx
    obtain ⟨h1, h2⟩ := g2.frames x hx
    exact ⟨by cases h : x.1 <;> rw [h] at h1 <;> exact h1, by cases h : x.2.2 <;> rw [h] at h2 <;> exact h2⟩
  have k12 := k1.trans k2
  have k3 : Keeps S S3 := by
    refine ⟨k12.nb, k12.nj, k12.ns, k12.nsh, k12.ground, ?_, k12.joint, k12.sub, k12.shape, k12.subframes, k12.shapes⟩
    intro b hb
    obtain ⟨q1, q2⟩ := k12.body b hb
    refine ⟨?_, q2⟩
    rw [← q1]; exact Function.update_of_ne (by omega) _ _
  have f12 := f1.trans f2
  have e3 : S3.mass S.nb = M := Function.update_self _ _ _
  refine ⟨S3, r1.bind (r2.bind (r3.bind (Runs.pure _ _))), g3, k3, ⟨f12.body, f12.joint⟩, b2.trans b1, j2.trans j1, sh2.trans sh1, ?_, ?_⟩
  · exact f2.body _ fb (by simp)
  · have hpos := partsMass_pos (fun d hd => (hx.2 d hd).2.1) hx.1
    refine ⟨?_, ?_, ?_⟩
    · rw [show S3.bname = S2.bname from rfl, (k2.body S.nb (by omega)).2]; exact nm1
    · rw [e3]
      refine ⟨_, hL.rigid hpos.ne', ?_⟩
      rw [smul_smul, mul_inv_cancel₀ hpos.ne', one_smul]
    · rw [e3]; exact hM hx.1

lemma icubBodies_runs (rows : List (String × List (Dims × ℝ × Mat4))) : ∀ {S : RS}, Good S F → (∀ x ∈ rows, PartsOK x) →
    ∃ S', Runs (each icubBody rows) S (numbered S.nb (rows.map fun x => x.1)) S' ∧ Good S' F ∧ Keeps S S' ∧ KeepsFresh S S' [] [] ∧
      S'.nb = S.nb + rows.length ∧ S'.nj = S.nj ∧ S'.nsh = S.nsh ∧
      ∀ k (hk : k < rows.length), FreshBody S'.w (S.nb + k) ∧ HasParts S' (S.nb + k) rows[k].1 rows[k].2 := by
  induction rows with
  | nil => intro S hg _; exact ⟨S, Runs.pure _ _, hg, .refl S, .refl S, rfl, rfl, rfl, fun k hk => absurd hk (by simp)⟩
  | cons l ls ih =>
    intro S hg hl
    obtain ⟨S1, r1, g1, k1, f1, b1, j1, sh1, fb, h1⟩ := icubBody_runs hg (hl l List.mem_cons_self)
    obtain ⟨S2, r2, g2, k2, f2, b2, j2, sh2, facts⟩ := ih g1 (fun x hx => hl x (List.mem_cons_of_mem _ hx))
    refine ⟨S2, ?_, g2, k1.trans k2, f1.trans f2, by simp; omega, by omega, by omega, ?_⟩
    · rw [b1] at r2
      exact r1.bind (r2.bind (Runs.pure _ _))
    · intro k hk
      rcases k with _ | k
      · exact ⟨f2.body _ fb (by simp), h1.keep k2 (by simp; omega)⟩
      · have := facts k (by simpa using hk)
        rw [b1, show S.nb + 1 + k = S.nb + (k + 1) by omega] at this
        exact this

/-! ### joints -/

lemma Spec.HasHinge.keep {S S' : RS} (hk : Keeps S S') {num x l} (ho : Old S l.1) (hj : l.2.1 < S.nj) (h : HasHinge S num x l) : HasHinge S' num x l := by
  obtain ⟨e1, e2, _⟩ := hk.joint _ hj
  exact ⟨by rw [hk.bodyOf ho]; exact h.parent, by rw [hk.bposeOf ho]; exact h.pose, h.child, by rw [e2]; exact h.name, by rw [e1]; exact h.kind⟩

lemma icubJoints_runs {m n j0 : ℕ} {js0 : List ℕ} {bodies : List (String × ℕ)} {num : String → ℕ} (rows : List (String × String × Mat4 × String)) :
    ∀ {S : RS} {Ls : List (FrameRef × ℕ × FrameRef)}, Web m n j0 F js0 S Ls →
    (∀ x ∈ rows, bodies.lookup x.2.1 = some (num x.2.1) ∧ bodies.lookup x.2.2.2 = some (num x.2.2.2) ∧ IsRigid x.2.2.1 ∧
      (num x.2.1 = S.w.ground ∨ m ≤ num x.2.1 ∧ num x.2.1 < n) ∧ m ≤ num x.2.2.2 ∧ num x.2.2.2 < n) →
    (rows.map fun x => num x.2.2.2).Nodup → (∀ l ∈ Ls, ∀ x ∈ rows, S.o.bodyOf l.2.2 ≠ num x.2.2.2) →
    ∃ S' v Ls', Runs (each (icubJoint bodies) rows) S v S' ∧ Web m n j0 F js0 S' (Ls ++ Ls') ∧ Keeps S S' ∧
      List.Forall₂ (HasHinge S' num) rows Ls' ∧ S'.nsh = S.nsh := by
  induction rows with
  | nil => intro S Ls hw _ _ _; exact ⟨S, [], [], Runs.pure _ _, by simpa using hw, .refl S, .nil, rfl⟩
  | cons x rows ih =>
    intro S Ls hw hx hnd hnew
    obtain ⟨q1, q2, q3, q4, q5, q6⟩ := hx x List.mem_cons_self
    obtain ⟨S1, r1, w1, k1, o1, p1, _, j1, s1, sh1⟩ := hw.sub (num x.2.1) q3.ishom none
    have hbo : S1.o.bodyOf (.sub S.ns) = num x.2.1 := o1
    have hold : ∀ l ∈ Ls, S1.o.bodyOf l.2.2 = S.o.bodyOf l.2.2 := fun l hl => k1.bodyOf (hw.old l hl).2
    obtain ⟨S2, S3, r2, r3, w3, k3, a3, n3, e0, e1, ep, s3, sh3⟩ := w1.link (f0 := .sub S.ns) (f1 := .body (num x.2.2.2))
      (by change S.ns < S1.ns; omega) (by change num x.2.2.2 < S1.nb; rw [w1.nb]; exact q6)
      (by rw [hbo, k1.ground]; exact q4) ⟨q5, q6⟩
      (fun l hl => by rw [hold l hl]; exact hnew l hl x List.mem_cons_self) (.zero .Rz) (some x.1)
    have k03 := k1.trans k3
    rw [List.map_cons, List.nodup_cons] at hnd
    obtain ⟨S', v, Ls', r4, w4, k4, hF, sh4⟩ := ih w3 (fun y hy => by rw [k03.ground]; exact hx y (List.mem_cons_of_mem _ hy)) hnd.2 (by
      intro l hl y hy
      rcases List.mem_append.mp hl with hl | hl
      · rw [k3.bodyOf (w1.old l hl).2, hold l hl]; exact hnew l hl y (List.mem_cons_of_mem _ hy)
      · rw [List.mem_singleton] at hl; subst hl
        rw [e1]
        intro h
        exact hnd.1 (List.mem_map.mpr ⟨y, hy, h.symm⟩))
    refine ⟨S', () :: v, (.sub S.ns, S1.nj, .body (num x.2.2.2)) :: Ls', ?_, by simpa using w4, k03.trans k4, .cons ?_ hF, sh4.trans (sh3.trans sh1)⟩
    · have : Runs (icubJoint bodies x) S () S3 :=
        (byName_runs q1 S).bind (r1.bind (r2.bind ((byName_runs q2 S2).bind r3)))
      exact this.bind (r4.bind (Runs.pure _ _))
    · have hm : (FrameRef.sub S.ns, S1.nj, FrameRef.body (num x.2.2.2)) ∈ Ls ++ [(FrameRef.sub S.ns, S1.nj, FrameRef.body (num x.2.2.2))] := by simp
      refine HasHinge.keep k4 (w3.old _ hm).1 (w3.lt_nj hm) ⟨?_, ?_, rfl, n3, a3⟩
      · simp only; rw [e0]; exact hbo
      · simp only; rw [ep]; exact p1

/-! ### shapes -/

lemma Spec.HasSolid.keep {S S' : RS} (hk : Keeps S S') {num x s} (hs : s < S.nsh) (h : HasSolid S num x s) : HasSolid S' num x s := by
  obtain ⟨e1, e2, e3⟩ := hk.shape s hs
  obtain ⟨f, h1, h2, h3, h4, h5, h6⟩ := h.frame
  obtain ⟨d1, d2, d3⟩ := hk.sub f h2
  exact ⟨hk.shapes _ h.registered, by rw [e2]; exact h.name, by rw [e1]; exact h.geo,
    f, hk.subframes _ h1, h2.trans_le hk.ns, by rw [e3]; exact h3, by rw [d2]; exact h4, by rw [d3]; exact h5, by rw [d1]; exact h6⟩

lemma solid_runs (hg : Good S F) {num : String → ℕ} {H : Mat4} (hH : IsRigid H) (fnm : Option String) {g : ShapeGeo} (ho : g.ok)
    (hst : g.stored = g) (snm body : String) :
    ∃ S1 S2 S3, Runs (newSub (num body) H fnm) S S.ns S1 ∧ Runs (newShape (.sub S.ns) g (some snm)) S1 S.nsh S2 ∧
      Runs (reg (.shape S.nsh)) S2 () S3 ∧ Good S3 F ∧ Keeps S S3 ∧ S3.nb = S.nb ∧ S3.nj = S.nj ∧ S3.nsh = S.nsh + 1 ∧
      HasSolid S3 num (fnm, snm, body, g, H) S.nsh := by
  obtain ⟨S1, r1, g1, k1, f1, o1, p1, nm1, b1, j1, s1, sh1, w1⟩ := newSub_runs hg (num body) hH.ishom fnm
  obtain ⟨S2, r2, g2, k2, f2, o2, p2, nm2, b2, j2, s2, sh2, w2⟩ := newShape_runs g1 (.sub S.ns) ho (some snm)
  rw [sh1] at r2 o2 p2 nm2
  obtain ⟨w3, r3, g3, k3, f3, hm3, kn3⟩ := regShape_runs g2 S.nsh
  rw [o2] at kn3
  refine ⟨S1, S2, { S2 with w := w3 }, r1, r2, r3, g3, (k1.trans k2).trans k3, b2.trans b1, j2.trans j1, by simp only; omega,
    ⟨hm3, nm2, by rw [show ({ S2 with w := w3 } : RS).geo = S2.geo from rfl, p2, hst], S.ns, kn3, by simp only; omega, o2, ?_, ?_, ?_⟩⟩
  · exact ((k2.trans k3).sub S.ns (by omega)).2.1.trans nm1
  · exact ((k2.trans k3).sub S.ns (by omega)).2.2.trans o1
  · exact ((k2.trans k3).sub S.ns (by omega)).1.trans p1

lemma icubGeo_ok {d : Dims} (hd : DimsOK d) (e : Except PyErr ShapeGeo) :
    icubGeo d e = .ok (geoOfDims d) ∧ (geoOfDims d).ok ∧ (geoOfDims d).stored = geoOfDims d := by
  obtain ⟨hl, hp⟩ := hd
  rcases d with _ | ⟨x, _ | ⟨y, _ | ⟨z, _ | ⟨t, l⟩⟩⟩⟩
  · simp at hl
  · exact ⟨rfl, (hp x (by simp)).le, rfl⟩
  · exact ⟨rfl, (hp y (by simp)).le, rfl⟩
  · exact ⟨rfl, trivial, rfl⟩
  · simp at hl

lemma forall₂_keep {α : Type} {R R' : α → ℕ → Prop} {l : List α} {l' : List ℕ} (h : List.Forall₂ R l l') (hk : ∀ a, ∀ s ∈ l', R a s → R' a s) :
    List.Forall₂ R' l l' := by
  induction h with
  | nil => exact .nil
  | cons h _ ih => exact .cons (hk _ _ List.mem_cons_self h) (ih (fun a s hs => hk a s (List.mem_cons_of_mem _ hs)))

lemma icubShapeRow_runs {bodies : List (String × ℕ)} {num : String → ℕ} {name : String} (hn : bodies.lookup name = some (num name))
    (ds : List (Dims × Mat4)) : ∀ {S : RS}, Good S F → (∀ d ∈ ds, DimsOK d.1 ∧ IsRigid d.2) →
    ∃ S' v, Runs (each (icubShape bodies name) ds) S v S' ∧ Good S' F ∧ Keeps S S' ∧ S'.nb = S.nb ∧ S'.nj = S.nj ∧ S'.nsh = S.nsh + ds.length ∧
      List.Forall₂ (HasSolid S' num) (ds.map fun d => (none, name ++ ".body_shape", name, geoOfDims d.1, d.2)) (List.range' S.nsh ds.length) := by
  induction ds with
  | nil => intro S hg _; exact ⟨S, _, Runs.pure _ _, hg, .refl S, rfl, rfl, rfl, .nil⟩
  | cons d ds ih =>
    intro S hg hd
    obtain ⟨h1, h2⟩ := hd d List.mem_cons_self
    obtain ⟨e1, e2, e3⟩ := icubGeo_ok h1 (.error .valueError)
    obtain ⟨S1, S2, S3, r1, r2, r3, g3, k3, b3, j3, sh3, hs⟩ := solid_runs hg (num := num) h2 none e2 e3 (name ++ ".body_shape") name
    obtain ⟨S', v, r4, g4, k4, b4, j4, sh4, hF⟩ := ih g3 (fun x hx => hd x (List.mem_cons_of_mem _ hx))
    refine ⟨S', () :: v, ?_, g4, k3.trans k4, b4.trans b3, j4.trans j3, by simp; omega, ?_⟩
    · have : Runs (icubShape bodies name d) S () S3 :=
        (byName_runs hn S).bind (r1.bind ((Runs.liftE e1 S1).bind (r2.bind r3)))
      exact this.bind (r4.bind (Runs.pure _ _))
    · rw [List.map_cons, List.length_cons, List.range'_succ]
      rw [sh3] at hF
      exact .cons (hs.keep k4 (by omega)) hF

lemma icubShapes_runs {bodies : List (String × ℕ)} {num : String → ℕ} (rows : List (String × List (Dims × Mat4))) : ∀ {S : RS}, Good S F →
    (∀ x ∈ rows, bodies.lookup x.1 = some (num x.1) ∧ ∀ d ∈ x.2, DimsOK d.1 ∧ IsRigid d.2) →
    ∃ S' v, Runs (each (icubShapesOf bodies) rows) S v S' ∧ Good S' F ∧ Keeps S S' ∧ S'.nb = S.nb ∧ S'.nj = S.nj ∧
      S'.nsh = S.nsh + (bodyRows rows).length ∧ List.Forall₂ (HasSolid S' num) (bodyRows rows) (List.range' S.nsh (bodyRows rows).length) := by
  induction rows with
  | nil => intro S hg _; exact ⟨S, _, Runs.pure _ _, hg, .refl S, rfl, rfl, rfl, .nil⟩
  | cons x rows ih =>
    intro S hg hx
    obtain ⟨h1, h2⟩ := hx x List.mem_cons_self
    obtain ⟨S1, v1, r1, g1, k1, b1, j1, sh1, hF1⟩ := icubShapeRow_runs (num := num) h1 x.2 hg h2
    obtain ⟨S', v, r4, g4, k4, b4, j4, sh4, hF⟩ := ih g1 (fun x hx' => hx x (List.mem_cons_of_mem _ hx'))
    have eb : bodyRows (x :: rows) = (x.2.map fun d => (none, x.1 ++ ".body_shape", x.1, geoOfDims d.1, d.2)) ++ bodyRows rows := by
      simp [bodyRows]
    refine ⟨S', () :: v, ?_, g4, k1.trans k4, b4.trans b1, j4.trans j1, by rw [eb]; simp; omega, ?_⟩
    · have : Runs (icubShapesOf bodies x) S () S1 := r1.bind (Runs.pure _ _)
      exact this.bind (r4.bind (Runs.pure _ _))
    · rw [eb, List.length_append, List.length_map, ← List.range'_append_1]
      refine List.rel_append ?_ (by rw [← sh1]; exact hF)
      refine forall₂_keep hF1 (fun a s hs => HasSolid.keep k4 ?_)
      rw [List.mem_range'_1] at hs; omega

lemma icubContacts_runs {bodies : List (String × ℕ)} {num : String → ℕ} (rows : List (String × String × Dims × Mat4)) : ∀ {S : RS}, Good S F →
    (∀ x ∈ rows, bodies.lookup x.2.1 = some (num x.2.1) ∧ (x.2.2.1 = [] ∨ DimsOK x.2.2.1) ∧ IsRigid x.2.2.2) →
    ∃ S' v, Runs (each (icubContact bodies) rows) S v S' ∧ Good S' F ∧ Keeps S S' ∧ S'.nb = S.nb ∧ S'.nj = S.nj ∧
      S'.nsh = S.nsh + (contactRows rows).length ∧ List.Forall₂ (HasSolid S' num) (contactRows rows) (List.range' S.nsh (contactRows rows).length) := by
  induction rows with
  | nil => intro S hg _; exact ⟨S, _, Runs.pure _ _, hg, .refl S, rfl, rfl, rfl, .nil⟩
  | cons x rows ih =>
    intro S hg hx
    obtain ⟨h1, h2, h3⟩ := hx x List.mem_cons_self
    have he : icubGeo x.2.2.1 (.ok .point) = .ok (geoOfDims x.2.2.1) ∧ (geoOfDims x.2.2.1).ok ∧ (geoOfDims x.2.2.1).stored = geoOfDims x.2.2.1 := by
      rcases h2 with h2 | h2
      · rw [h2]; exact ⟨rfl, trivial, rfl⟩
      · exact icubGeo_ok h2 _
    obtain ⟨e1, e2, e3⟩ := he
    obtain ⟨S1, S2, S3, r1, r2, r3, g3, k3, b3, j3, sh3, hs⟩ := solid_runs hg (num := num) h3 (some x.1) e2 e3 x.1 x.2.1
    obtain ⟨S', v, r4, g4, k4, b4, j4, sh4, hF⟩ := ih g3 (fun x hx' => hx x (List.mem_cons_of_mem _ hx'))
    refine ⟨S', () :: v, ?_, g4, k3.trans k4, b4.trans b3, j4.trans j3, by simp [contactRows] at sh4 ⊢; omega, ?_⟩
    · have : Runs (icubContact bodies x) S () S3 :=
        (byName_runs h1 S).bind (r1.bind ((Runs.liftE e1 S1).bind (r2.bind r3)))
      exact this.bind (r4.bind (Runs.pure _ _))
    · simp only [contactRows, List.map_cons, List.length_cons, List.range'_succ] at hF ⊢
      rw [sh3] at hF
      exact .cons (hs.keep k4 (by omega)) hF

/-! ### the robot -/

/-- tables that describe a robot -/
structure Spec.TableOK (D : IcubItems) : Prop where
  names : (D.bodies.map fun x => x.1).Nodup
  waist : "waist" ∈ D.bodies.map fun x => x.1
  parts : ∀ x ∈ D.bodies, PartsOK x
  ends : ∀ x ∈ D.joints, x.2.1 ∈ (D.bodies.map fun x => x.1) ∧ x.2.2.2 ∈ (D.bodies.map fun x => x.1) ∧ x.2.2.2 ≠ "waist" ∧ IsRigid x.2.2.1
  once : (D.joints.map fun x => x.2.2.2).Nodup
  all : ∀ x ∈ D.bodies, x.1 ≠ "waist" → ∃ j ∈ D.joints, j.2.2.2 = x.1
  rank : ∃ r : String → ℕ, ∀ x ∈ D.joints, r x.2.1 < r x.2.2.2
  shapes : ∀ x ∈ D.shapes, x.1 ∈ (D.bodies.map fun x => x.1) ∧ ∀ d ∈ x.2, DimsOK d.1 ∧ IsRigid d.2
  contacts : ∀ x ∈ D.contacts, x.2.1 ∈ (D.bodies.map fun x => x.1) ∧ (x.2.2.1 = [] ∨ DimsOK x.2.2.1) ∧ IsRigid x.2.2.2

lemma icubBase_runs {m : ℕ} {bodies : List (String × ℕ)} (fixed : Bool) (hw : Web m S.nb S.nj F (S.w.body S.w.ground).children S [])
    {w : ℕ} (hl : bodies.lookup "waist" = some w) (hwm : m ≤ w ∧ w < S.nb) :
    ∃ S' bodies' root, Runs (icubBase fixed bodies) S bodies' S' ∧ Web m S.nb S.nj F (S.w.body S.w.ground).children S' root ∧ Keeps S S' ∧
      S'.nsh = S.nsh ∧ (∀ x, bodies'.lookup x = if fixed = true ∧ x = "waist" then some S.w.ground else bodies.lookup x) ∧
      (fixed = true ∧ root = [] ∨ fixed = false ∧ ∃ j, root = [(.body S.w.ground, j, .body w)] ∧ S'.jattr j = .free 1 0 ∧ S'.jname j = some "root") := by
  cases fixed with
  | true =>
    refine ⟨S, Urdf.dictSet bodies "waist" S.w.ground, [], rfl, hw, .refl S, rfl, ?_, .inl ⟨rfl, rfl⟩⟩
    intro x
    rw [lookup_dictSet]
    simp
  | false =>
    obtain ⟨S1, S2, r1, r2, w2, k2, a2, n2, _, _, _, s2, sh2⟩ := hw.link (f0 := .body S.w.ground) (f1 := .body w)
      (by have := hw.low _ List.mem_cons_self; have := hw.le; change S.w.ground < S.nb; omega) hwm.2 (.inl rfl) hwm (by simp) (.free 1 0) (some "root")
    refine ⟨S2, bodies, _, ?_, w2, k2, sh2, by simp, .inr ⟨rfl, S.nj, by simp, a2, n2⟩⟩
    exact (Runs.ground S).bind (r1.bind ((byName_runs hl S1).bind (r2.bind (Runs.pure _ _))))

lemma lookup_of_mem {names : List String} (hn : names.Nodup) {x : String} (hx : x ∈ names) (m : ℕ) :
    ∃ k, ∃ hk : k < names.length, names[k] = x ∧ (numbered m names).lookup x = some (m + k) := by
  obtain ⟨k, hk, e⟩ := List.mem_iff_getElem.mp hx
  exact ⟨k, hk, e, (lookup_numbered hn x _).mpr ⟨k, by rw [List.getElem?_eq_getElem hk, e], rfl⟩⟩

theorem addIcub_runs {D : IcubItems} (hD : TableOK D) {lim : ℕ} (hg : Good S F) (hl : depth F < lim) (hl' : D.bodies.length < lim)
    (fixed shapes contacts : Bool) :
    ∃ S' G num, Runs (addIcub lim fixed shapes contacts D) S () S' ∧ IsRobot D fixed shapes contacts S F S' G num := by
  classical
  obtain ⟨S1, r1, g1, k1, f1, b1, j1, sh1, facts⟩ := icubBodies_runs D.bodies hg hD.parts
  have hlen : (D.bodies.map fun x => x.1).length = D.bodies.length := by simp
  have hweb : Web S.nb S1.nb S1.nj F (S1.w.body S1.w.ground).children S1 [] := by
    refine Web.start g1 ?_ (by omega) rfl g1.joints ?_
    · rw [k1.ground]; exact fun b hb => hg.body_lt hb
    · intro b h1 h2
      have := (facts (b - S.nb) (by omega)).1
      rwa [show S.nb + (b - S.nb) = b by omega] at this
  obtain ⟨kw, hkw, ekw, lw⟩ := lookup_of_mem hD.names hD.waist S.nb
  obtain ⟨S2, bodies', root, r2, w2, k2, sh2, hlook, hroot⟩ := icubBase_runs fixed hweb lw (by omega)
  let num : String → ℕ := fun x => (bodies'.lookup x).getD 0
  have k02 := k1.trans k2
  -- the numbers
  have hnum : ∀ x ∈ D.bodies.map (fun x => x.1), bodies'.lookup x = some (num x) ∧
      (fixed = true ∧ x = "waist" ∧ num x = S.w.ground ∨ ¬ (fixed = true ∧ x = "waist") ∧
        ∃ k, ∃ hk : k < D.bodies.length, D.bodies[k].1 = x ∧ num x = S.nb + k) := by
    intro x hx
    obtain ⟨k, hk, e, lk⟩ := lookup_of_mem hD.names hx S.nb
    have h1 := hlook x
    by_cases hc : fixed = true ∧ x = "waist"
    · rw [if_pos hc] at h1
      have : num x = S1.w.ground := by simp only [num, h1, Option.getD_some]
      exact ⟨by rw [h1, this], .inl ⟨hc.1, hc.2, by rw [this, k1.ground]⟩⟩
    · rw [if_neg hc, lk] at h1
      have : num x = S.nb + k := by simp only [num, h1, Option.getD_some]
      exact ⟨by rw [h1, this], .inr ⟨hc, k, by omega, by simpa using e, this⟩⟩
  have hwaist : "waist" ∈ D.bodies.map (fun x => x.1) := hD.waist
  have hgnb : S.w.ground < S.nb := hg.ground
  have hrange : ∀ x ∈ D.bodies.map (fun x => x.1), num x = S.w.ground ∨ S.nb ≤ num x ∧ num x < S1.nb := by
    intro x hx
    rcases (hnum x hx).2 with ⟨_, _, h⟩ | ⟨_, k, hk, _, h⟩
    · exact .inl h
    · exact .inr (by omega)
  have hinj : ∀ x ∈ D.bodies.map (fun x => x.1), ∀ y ∈ D.bodies.map (fun x => x.1), num x = num y → x = y := by
    intro x hx y hy e
    rcases (hnum x hx).2 with ⟨_, h1, h2⟩ | ⟨_, k, hk, h1, h2⟩ <;> rcases (hnum y hy).2 with ⟨_, h3, h4⟩ | ⟨_, k', hk', h3, h4⟩
    · rw [h1, h3]
    · omega
    · omega
    · have : k = k' := by omega
      subst this; rw [← h1, h3]
  have hnb2 : S2.nb = S1.nb := w2.nb
  have hchild : ∀ x ∈ D.joints, S.nb ≤ num x.2.2.2 ∧ num x.2.2.2 < S1.nb := by
    intro x hx
    obtain ⟨_, h2, h3, _⟩ := hD.ends x hx
    rcases (hnum _ h2).2 with ⟨_, h, _⟩ | ⟨_, k, hk, _, h⟩
    · exact absurd h h3
    · omega
  have hgr2 : S2.w.ground = S.w.ground := k02.ground
  -- what is in `root`
  have hrootw : fixed = false → num "waist" = S.nb + kw := by
    intro h
    have h1 := hlook "waist"
    rw [if_neg (by simp [h]), lw] at h1
    simp only [num, h1, Option.getD_some]
  obtain ⟨S3, v3, Ls, r3, w3, k3, hF3, sh3⟩ := icubJoints_runs (bodies := bodies') (num := num) D.joints w2 (by
      intro x hx
      obtain ⟨h1, h2, h3, h4⟩ := hD.ends x hx
      refine ⟨(hnum _ h1).1, (hnum _ h2).1, h4, ?_, hchild x hx⟩
      rw [hgr2]; exact hrange _ h1) (by
      have : (D.joints.map fun x => num x.2.2.2) = (D.joints.map fun x => x.2.2.2).map num := by simp
      rw [this]
      refine List.Nodup.map_on ?_ hD.once
      intro x hx y hy e
      obtain ⟨x', hx', rfl⟩ := List.mem_map.mp hx
      obtain ⟨y', hy', rfl⟩ := List.mem_map.mp hy
      exact hinj _ (hD.ends x' hx').2.1 _ (hD.ends y' hy').2.1 e) (by
      intro l hl x hx
      rcases hroot with ⟨_, e⟩ | ⟨e, j, e', _⟩
      · rw [e] at hl; simp at hl
      · rw [e', List.mem_singleton] at hl
        subst hl
        change S.nb + kw ≠ num x.2.2.2
        rw [← hrootw e]
        intro h
        exact (hD.ends x hx).2.2.1 (hinj _ hwaist _ (hD.ends x hx).2.1 h).symm)
  have k03 := k02.trans k3
  have hgr3 : S3.w.ground = S.w.ground := k03.ground
  -- the tree
  have hmemLs : ∀ l ∈ Ls, ∃ x ∈ D.joints, HasHinge S3 num x l := fun l hl => by
    obtain ⟨x, hx, h⟩ := forall₂_left hF3.flip l hl
    exact ⟨x, hx, h⟩
  have hrow : ∀ x ∈ D.joints, ∃ l ∈ Ls, HasHinge S3 num x l := forall₂_left hF3
  obtain ⟨r, hr⟩ := hD.rank
  have hends : ∀ l, ∀ x, HasHinge S3 num x l → S3.o.bodyOf l.2.2 = num x.2.2.2 := fun l x h => by rw [h.child]; rfl
  have hrootmem : ∀ l ∈ root, fixed = false ∧ S3.o.bodyOf l.1 = S3.w.ground ∧ S3.o.bodyOf l.2.2 = num "waist" := by
    intro l hl
    rcases hroot with ⟨_, e⟩ | ⟨e, j, e', _⟩
    · rw [e] at hl; simp at hl
    · rw [e', List.mem_singleton] at hl
      subst hl
      refine ⟨e, ?_, ?_⟩
      · change S1.w.ground = S3.w.ground; rw [hgr3, k1.ground]
      · change S.nb + kw = num "waist"; rw [hrootw e]
  let rank : ℕ → ℕ := fun b => if h : ∃ x ∈ D.bodies.map (fun x => x.1), num x = b then r h.choose + 1 else 0
  have hrank : ∀ x ∈ D.bodies.map (fun x => x.1), rank (num x) = r x + 1 := by
    intro x hx
    have h : ∃ y ∈ D.bodies.map (fun x => x.1), num y = num x := ⟨x, hx, rfl⟩
    simp only [rank]
    rw [dif_pos h]
    have := h.choose_spec
    rw [hinj _ this.1 _ hx this.2]
  obtain ⟨G, g4, hperm, hbod⟩ := w3.good (rank := rank) (by
      intro l hl
      rcases List.mem_append.mp hl with hl | hl
      · exact .inl (hrootmem l hl).2.1
      · obtain ⟨x, hx, h⟩ := hmemLs l hl
        obtain ⟨h1, h2, _⟩ := hD.ends x hx
        right
        rw [h.parent, hends l x h, hrank _ h1, hrank _ h2]
        have := hr x hx; omega) (by
      intro l hl
      rcases List.mem_append.mp hl with hl | hl
      · exact .inl (hrootmem l hl).2.1
      · obtain ⟨x, hx, h⟩ := hmemLs l hl
        obtain ⟨h1, h2, _⟩ := hD.ends x hx
        rw [h.parent, hgr3]
        rcases (hnum _ h1).2 with ⟨_, _, e⟩ | ⟨hnf, k, hk, e1, e2⟩
        · exact .inl e
        · right
          by_cases hw : x.2.1 = "waist"
          · have hff : fixed = false := by
              cases hf : fixed with
              | false => rfl
              | true => exact absurd ⟨hf, hw⟩ hnf
            rcases hroot with ⟨e, _⟩ | ⟨_, j, e', _⟩
            · rw [e] at hff; cases hff
            · have hm : (FrameRef.body S1.w.ground, j, FrameRef.body (S.nb + kw)) ∈ root := by rw [e']; simp
              exact ⟨_, List.mem_append_left _ hm, by rw [(hrootmem _ hm).2.2, hw]⟩
          · obtain ⟨b, hb, eb⟩ := List.mem_map.mp h1
            obtain ⟨x', hx', ex'⟩ := hD.all b hb (by rw [eb]; exact hw)
            obtain ⟨l', hl', h'⟩ := hrow x' hx'
            exact ⟨l', List.mem_append_right _ hl', by rw [hends l' x' h', ex', eb]⟩)
  -- shapes
  obtain ⟨S5, v5, r5, g5, k5, b5, j5, sh5, hF5⟩ := icubShapes_runs (bodies := bodies') (num := num) (if shapes then D.shapes else []) g4 (by
    intro x hx
    have hx : x ∈ D.shapes := by cases shapes <;> simp at hx; exact hx
    obtain ⟨h1, h2⟩ := hD.shapes x hx
    exact ⟨(hnum _ h1).1, h2⟩)
  obtain ⟨S6, v6, r6, g6, k6, b6, j6, sh6, hF6⟩ := icubContacts_runs (bodies := bodies') (num := num) (if contacts then D.contacts else []) g5 (by
    intro x hx
    have hx : x ∈ D.contacts := by cases contacts <;> simp at hx; exact hx
    obtain ⟨h1, h2⟩ := hD.contacts x hx
    exact ⟨(hnum _ h1).1, h2⟩)
  -- `init`
  have hGb : G.bodies.length ≤ D.bodies.length := by
    have hnd : G.bodies.Nodup := by
      have := (List.nodup_cons.mp g6.tree.bodies_nodup).2
      rw [Forest.bodies_append] at this
      exact (List.nodup_append.mp this).2.1
    have hsub : G.bodies ⊆ List.range' S.nb D.bodies.length := by
      intro b hb
      obtain ⟨l, hl, e⟩ := (hbod b).mp hb
      have := w3.ends1 l hl
      rw [e] at this
      rw [List.mem_range'_1]; omega
    have := (List.subperm_of_subset hnd hsub).length_le
    simpa using this
  have hdep : depth (F.append G) < lim := by
    rw [depth_append]
    have := depth_le_bodies G
    omega
  obtain ⟨w7, r7, g7, k7, f7, nd7, _⟩ := init_runs g6 hdep
  have k47 := (k5.trans k6).trans k7
  have k07 := k03.trans k47
  have hLs7 : List.Forall₂ (HasHinge { S6 with w := w7 } num) D.joints Ls := by
    have hgen : ∀ {as : List (String × String × Mat4 × String)} {ls : List (FrameRef × ℕ × FrameRef)}, List.Forall₂ (HasHinge S3 num) as ls →
        (∀ l ∈ ls, l ∈ Ls) → List.Forall₂ (HasHinge { S6 with w := w7 } num) as ls := by
      intro as ls h
      induction h with
      | nil => intro _; exact .nil
      | cons h _ ih =>
        intro hs
        have hm := List.mem_append_right root (hs _ List.mem_cons_self)
        exact .cons (h.keep k47 (w3.old _ hm).1 (w3.lt_nj hm)) (ih (fun l hl => hs l (List.mem_cons_of_mem _ hl)))
    exact hgen hF3 (fun l hl => hl)
  refine ⟨{ S6 with w := w7 }, G, num, ?_, ⟨g7, k07, ?_, ?_, ?_, ?_, ?_, ?_, ?_, ?_⟩⟩
  · exact r1.bind (r2.bind (r3.bind (r5.bind (r6.bind r7))))
  · have := w3.nb; simp only; omega
  · intro hf
    rcases (hnum _ hwaist).2 with ⟨_, _, h⟩ | ⟨h, _⟩
    · exact h
    · exact absurd ⟨hf, rfl⟩ h
  · intro x hx
    have hx' : x.1 ∈ D.bodies.map (fun x => x.1) := List.mem_map_of_mem (f := fun x : String × List (Dims × ℝ × Mat4) => x.1) hx
    rcases (hnum _ hx').2 with ⟨h1, h2, _⟩ | ⟨_, k, hk, e1, e2⟩
    · exact .inl ⟨h1, h2⟩
    · right
      have hb := w3.nb
      refine ⟨by omega, by simp only; omega, ?_⟩
      have hx2 : D.bodies[k] = x := by
        have hnd := hD.names
        exact List.inj_on_of_nodup_map hnd (List.getElem_mem hk) hx e1
      have := (facts k hk).2
      rw [hx2] at this
      rw [e2]
      exact this.keep ((k2.trans k3).trans k47) (by omega)
  · intro x hx y hy e
    exact hinj _ (List.mem_map_of_mem (f := fun x : String × List (Dims × ℝ × Mat4) => x.1) hx) _
      (List.mem_map_of_mem (f := fun x : String × List (Dims × ℝ × Mat4) => x.1) hy) e
  · intro b
    rw [hbod b]
    constructor
    · rintro ⟨l, hl, e⟩
      rcases List.mem_append.mp hl with hl | hl
      · obtain ⟨hf, _, h2⟩ := hrootmem l hl
        obtain ⟨x, hx, ex⟩ := List.mem_map.mp hwaist
        exact ⟨x, hx, by simp [hf], by rw [ex, ← h2, e]⟩
      · obtain ⟨x, hx, h⟩ := hmemLs l hl
        obtain ⟨_, h2, h3, _⟩ := hD.ends x hx
        obtain ⟨y, hy, ey⟩ := List.mem_map.mp h2
        exact ⟨y, hy, fun hc => h3 (by rw [← ey]; exact hc.2), by rw [ey, ← hends l x h, e]⟩
    · rintro ⟨x, hx, hc, e⟩
      by_cases hw : x.1 = "waist"
      · have hff : fixed = false := by
          cases hf : fixed with
          | false => rfl
          | true => exact absurd ⟨hf, hw⟩ hc
        rcases hroot with ⟨e, _⟩ | ⟨_, j, e', _⟩
        · rw [e] at hff; cases hff
        · have hm : (FrameRef.body S1.w.ground, j, FrameRef.body (S.nb + kw)) ∈ root := by rw [e']; simp
          exact ⟨_, List.mem_append_left _ hm, by rw [(hrootmem _ hm).2.2, ← hw, e]⟩
      · obtain ⟨x', hx', ex'⟩ := hD.all x hx hw
        obtain ⟨l', hl', h'⟩ := hrow x' hx'
        exact ⟨l', List.mem_append_right _ hl', by rw [hends l' x' h', ex', e]⟩
  · refine ⟨root, Ls, hperm, hLs7, ?_⟩
    rcases hroot with h | ⟨hf, j, e, ha, hn⟩
    · exact .inl h
    · right
      refine ⟨hf, j, by rw [e, hrootw hf, k1.ground], ?_⟩
      have hm : (FrameRef.body S1.w.ground, j, FrameRef.body (S.nb + kw)) ∈ root := by rw [e]; simp
      obtain ⟨q1, q2, _⟩ := (k3.trans k47).joint j (w2.lt_nj hm)
      exact ⟨by rw [q1]; exact ha, by rw [q2]; exact hn⟩
  · simp only
    rw [nd7]
    have e1 : joints (F.append G) = joints F ++ joints G := by simp [joints, Forest.links_append]
    have e2 : ∀ j ∈ joints F, S6.o.ndof j = S.o.ndof j := fun j hj => (k07.joint j (hg.joints j hj)).2.2
    have e3 : (joints G).Perm ((root ++ Ls).map fun l => l.2.1) := hperm.map _
    have e4 : ∀ l ∈ root ++ Ls, S6.o.ndof l.2.1 = S3.o.ndof l.2.1 := fun l hl => ((k5.trans k6).joint _ (w3.lt_nj hl)).2.2
    have e5 : ∀ l ∈ Ls, S6.o.ndof l.2.1 = 1 := by
      intro l hl
      rw [e4 l (List.mem_append_right _ hl), w3.ndof l (List.mem_append_right _ hl)]
      obtain ⟨x, _, h⟩ := hmemLs l hl
      rw [h.kind]; rfl
    rw [ndofSum, e1, List.map_append, List.sum_append, List.map_congr_left e2, (e3.map S6.o.ndof).sum_eq, List.map_append, List.map_append,
      List.sum_append, List.map_map, List.map_map,
      List.map_congr_left (l := Ls) (f := S6.o.ndof ∘ fun l : FrameRef × ℕ × FrameRef => l.2.1) (g := fun _ => 1) e5]
    have hlLs : Ls.length = D.joints.length := hF3.length_eq.symm
    have hroot6 : (root.map (S6.o.ndof ∘ fun l => l.2.1)).sum = if fixed then 0 else 6 := by
      rcases hroot with ⟨hf, e⟩ | ⟨hf, j, e, ha, _⟩
      · simp [hf, e]
      · have hm : (FrameRef.body S1.w.ground, j, FrameRef.body (S.nb + kw)) ∈ root := by rw [e]; simp
        have h1 : S6.o.ndof j = 6 := by
          have := e4 _ (List.mem_append_left Ls hm)
          simp only at this
          rw [this]
          have := w3.ndof _ (List.mem_append_left Ls hm)
          simp only at this
          rw [this, (k3.joint j (w2.lt_nj hm)).1, ha]; rfl
        rw [e]; simp [hf, h1]
    rw [hroot6]
    simp [hlLs]; omega
  · refine ⟨List.range' S.nsh (S6.nsh - S.nsh), .refl _, ?_⟩
    have hs3 : S3.nsh = S.nsh := by omega
    rw [sh5] at sh6 hF6
    have e1 : bodyRows (if shapes then D.shapes else []) = if shapes then bodyRows D.shapes else [] := by cases shapes <;> rfl
    have e2 : contactRows (if contacts then D.contacts else []) = if contacts then contactRows D.contacts else [] := by cases contacts <;> rfl
    rw [e1] at hF5 hF6 sh6
    rw [e2] at hF6 sh6
    rw [hs3] at hF5 hF6 sh6
    rw [show S6.nsh - S.nsh = (if shapes then bodyRows D.shapes else []).length + (if contacts then contactRows D.contacts else []).length by omega,
      ← List.range'_append_1]
    refine List.rel_append ?_ ?_
    · refine forall₂_keep hF5 (fun a s hs => HasSolid.keep (k6.trans k7) ?_)
      rw [List.mem_range'_1] at hs; rw [sh5, e1, hs3]; omega
    · refine forall₂_keep hF6 (fun a s hs => HasSolid.keep k7 ?_)
      rw [List.mem_range'_1] at hs; omega

/-! ### the order of the tables -/

lemma forall₂_perm {α β : Type} {R : α → β → Prop} {l l' : List α} {u : List β} (h : List.Forall₂ R l u) (hp : l'.Perm l) :
    ∃ u', u'.Perm u ∧ List.Forall₂ R l' u' := by
  obtain ⟨u', h1, h2⟩ := List.perm_comp_forall₂ hp h
  exact ⟨u', h2, h1⟩

lemma Spec.IsRobot.perm {D D' : IcubItems} {fixed shapes contacts : Bool} {S' : RS} {G num} (h : IsRobot D fixed shapes contacts S F S' G num)
    (hb : D.bodies.Perm D'.bodies) (hj : D.joints.Perm D'.joints) (hs : D.shapes.Perm D'.shapes) (hc : D.contacts.Perm D'.contacts) :
    IsRobot D' fixed shapes contacts S F S' G num := by
  refine ⟨h.tree, h.keeps, by rw [← hb.length_eq]; exact h.count, h.waist, fun x hx => h.new x (hb.mem_iff.mpr hx),
    fun x hx y hy => h.distinct x (hb.mem_iff.mpr hx) y (hb.mem_iff.mpr hy), ?_, ?_, by rw [← hj.length_eq]; exact h.ndof, ?_⟩
  · intro b; rw [h.all b]
    exact ⟨fun ⟨x, hx, q⟩ => ⟨x, hb.mem_iff.mp hx, q⟩, fun ⟨x, hx, q⟩ => ⟨x, hb.mem_iff.mpr hx, q⟩⟩
  · obtain ⟨root, Ls, h1, h2, h3⟩ := h.links
    obtain ⟨Ls', p, h4⟩ := forall₂_perm h2 hj.symm
    exact ⟨root, Ls', h1.trans (p.symm.append_left root), h4, h3⟩
  · obtain ⟨ids, h1, h2⟩ := h.shapes
    have hp : ((if shapes then bodyRows D'.shapes else []) ++ if contacts then contactRows D'.contacts else []).Perm
        ((if shapes then bodyRows D.shapes else []) ++ if contacts then contactRows D.contacts else []) := by
      refine List.Perm.append ?_ ?_
      · cases shapes
        · exact .refl _
        · exact (hs.flatMap_right _).symm
      · cases contacts
        · exact .refl _
        · exact (hc.map _).symm
    obtain ⟨ids', p, h4⟩ := forall₂_perm h2 hp
    exact ⟨ids', p.trans h1, h4⟩

lemma Spec.TableOK.perm {D D' : IcubItems} (h : TableOK D)
    (hb : D.bodies.Perm D'.bodies) (hj : D.joints.Perm D'.joints) (hs : D.shapes.Perm D'.shapes) (hc : D.contacts.Perm D'.contacts) : TableOK D' := by
  have hn := hb.map (fun x => x.1)
  obtain ⟨r, hr⟩ := h.rank
  refine ⟨hn.nodup_iff.mp h.names, hn.mem_iff.mp h.waist, fun x hx => h.parts x (hb.mem_iff.mpr hx), ?_, (hj.map _).nodup_iff.mp h.once, ?_,
    ⟨r, fun x hx => hr x (hj.mem_iff.mpr hx)⟩, ?_, ?_⟩
  · intro x hx
    obtain ⟨h1, h2, h3⟩ := h.ends x (hj.mem_iff.mpr hx)
    exact ⟨hn.mem_iff.mp h1, hn.mem_iff.mp h2, h3⟩
  · intro x hx hw
    obtain ⟨j, h1, h2⟩ := h.all x (hb.mem_iff.mpr hx) hw
    exact ⟨j, hj.mem_iff.mp h1, h2⟩
  · intro x hx
    obtain ⟨h1, h2⟩ := h.shapes x (hs.mem_iff.mpr hx)
    exact ⟨hn.mem_iff.mp h1, h2⟩
  · intro x hx
    obtain ⟨h1, h2⟩ := h.contacts x (hc.mem_iff.mpr hx)
    exact ⟨hn.mem_iff.mp h1, h2⟩

end
end Arboris
