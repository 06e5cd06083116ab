import Verif.Model.Human36
import Verif.Props.Robots

/-! # Lemmas about loops that make bodies, links, frames and shapes -/

namespace Arboris
open Graph Spec Build Matrix

/-- the names, with successive numbers -/
def Spec.numbered : ℕ → List String → List (String × ℕ)
  | _, [] => []
  | nb, n :: r => (n, nb) :: numbered (nb + 1) r

/-- a new leaf: below the ground (`p = root`) or below a body of the forest -/
def Spec.put (root : ℕ) (F : Forest (FrameRef × ℕ × FrameRef) ℕ) (p : ℕ) (l : FrameRef × ℕ × FrameRef) (c : ℕ) :
    Forest (FrameRef × ℕ × FrameRef) ℕ := if p = root then F.snoc l c else F.hang p l c

/-- leaves hung one after the other: `(parent, child)`, by the joints `nj, nj+1, …`, from frames `ns, ns+1, …` of the parents -/
def Spec.putAll (root : ℕ) : Forest (FrameRef × ℕ × FrameRef) ℕ → ℕ → ℕ → List (ℕ × ℕ) → Forest (FrameRef × ℕ × FrameRef) ℕ
  | F, _, _, [] => F
  | F, nj, ns, x :: r => putAll root (put root F x.1 (.sub ns, nj, .body x.2) x.2) (nj + 1) (ns + 1) r

/-- each parent is there when needed, the children are new -/
def Spec.Ready (S : RS) : List ℕ → List (ℕ × ℕ) → Prop
  | _, [] => True
  | B, x :: r => x.1 ∈ B ∧ FreshBody S.w x.2 ∧ x.2 < S.nb ∧ (∀ y ∈ r, y.2 ≠ x.2) ∧ Ready S (x.2 :: B) r

lemma Spec.Ready.mono {S S' : RS} (hb : S.nb ≤ S'.nb) {c : ℕ} (hf : ∀ b, FreshBody S.w b → b ≠ c → FreshBody S'.w b) :
    ∀ {r : List (ℕ × ℕ)} {B : List ℕ}, Ready S B r → (∀ y ∈ r, y.2 ≠ c) → Ready S' B r
  | [], _, _, _ => trivial
  | x :: r, B, ⟨h1, h2, h3, h4, h5⟩, hc =>
    ⟨h1, hf _ h2 (hc x List.mem_cons_self), h3.trans_le hb, h4, Ready.mono hb hf h5 (fun y hy => hc y (List.mem_cons_of_mem _ hy))⟩

lemma byName_runs {l : List (String × ℕ)} {n : String} {x : ℕ} (h : l.lookup n = some x) (S : RS) : Runs (byName l n) S x S := by
  simp [byName, h, Runs.pure]

lemma ismass_psd {M : Mat6} {m : ℝ} {c : Vec3} {I : Mat3} (h : IsRigidMass M m c I) (hp : SymPSD M) : ismassmatrix M true := by
  refine ⟨?_, ?_, ?_⟩
  · intro i j; rw [hp.1]; simp; positivity
  · have e : b22 M = M 3 3 • (1 : Mat3) := by
      have : M 3 3 = m := by rw [h.eq]; simp [blk]
      rw [this, h.eq, b22_blk]
    intro i j; rw [e]; simp; positivity
  · rintro l ⟨x, hx, e⟩
    have h1 := hp.2 x
    rw [e, dotProduct_smul, smul_eq_mul] at h1
    have h2 : 0 < x ⬝ᵥ x := by
      obtain ⟨i, hi⟩ := Function.ne_iff.mp hx
      rw [dotProduct]
      exact Finset.sum_pos' (fun i _ => mul_self_nonneg _) ⟨i, Finset.mem_univ _, mul_self_pos.mpr hi⟩
    have : 0 ≤ l := by
      by_contra hl
      nlinarith [mul_neg_of_neg_of_pos (not_le.mp hl) h2]
    simpa using this

lemma diag6_psd {a b c m : ℝ} (ha : 0 ≤ a) (hb : 0 ≤ b) (hc : 0 ≤ c) (hm : 0 ≤ m) : SymPSD (diag6 a b c m) := by
  refine ⟨Matrix.diagonal_transpose _, fun x => ?_⟩
  have hd : ∀ i, 0 ≤ (![a, b, c, m, m, m] : Fin 6 → ℝ) i := by
    intro i; fin_cases i <;> simp <;> assumption
  simp only [diag6, Matrix.mulVec_diagonal, dotProduct]
  apply Finset.sum_nonneg
  intro j _
  have := mul_nonneg (hd j) (mul_self_nonneg (x j))
  linarith

/-- the mass matrix of a body with its principal axes along those of its frame: mass `m`, centre of mass `c`, gyration radii `g` -/
lemma gyrRigid (m : ℝ) (c g : Vec3) :
    ∃ H, inv (mkH 1 c) = .ok H ∧ adjoint H = .ok (adjointBody H) ∧ IsRigid H ∧
      IsRigidMass ((adjointBody H)ᵀ * (diag6 (m * g 0 ^ 2) (m * g 1 ^ 2) (m * g 2 ^ 2) m * adjointBody H)) m c
        (m • (Matrix.diagonal ![g 0 ^ 2, g 1 ^ 2, g 2 ^ 2] - skew c * skew c)) := by
  have hr : IsRigid (mkH 1 c) := isRigid_iff.mpr ⟨1, c, ⟨by simp, by simp, by simp⟩, rfl⟩
  have hi := hr.invBody
  have e1 : invBody (mkH 1 c) = mkH 1 (-c) := by simp [invBody]
  refine ⟨invBody (mkH 1 c), assertHom_ok hr.ishom _, assertHom_ok hi.ishom _, hi, ?_⟩
  rw [e1]
  refine ⟨?_, ?_⟩
  · rw [Matrix.transpose_smul, Matrix.transpose_sub, Matrix.diagonal_transpose, Matrix.transpose_mul, skew_transpose, neg_mul_neg]
  · rw [(diag6_rigid _ _ _ _).eq, adjointBody_mkH, blk_transpose, blk_mul, blk_mul, skew_zero, skew_neg]
    congr 1 <;> simp [skew_transpose]
    rw [smul_sub, sub_eq_add_neg]
    congr 1
    ext i j; fin_cases i <;> fin_cases j <;> simp [Matrix.diagonal]

lemma gyrMass {m : ℝ} (hm : 0 ≤ m) (c g : Vec3) :
    ∃ M H, inv (mkH 1 c) = .ok H ∧ adjoint H = .ok (adjointBody H) ∧
      M = (adjointBody H)ᵀ * (diag6 (m * g 0 ^ 2) (m * g 1 ^ 2) (m * g 2 ^ 2) m * adjointBody H) ∧
      IsRigidMass M m c (m • (Matrix.diagonal ![g 0 ^ 2, g 1 ^ 2, g 2 ^ 2] - skew c * skew c)) ∧ SymPSD M ∧ ismassmatrix M true := by
  obtain ⟨H, h1, h2, _, hM⟩ := gyrRigid m c g
  have hp : SymPSD ((adjointBody H)ᵀ * (diag6 (m * g 0 ^ 2) (m * g 1 ^ 2) (m * g 2 ^ 2) m * adjointBody H)) := by
    have hd := diag6_psd (a := m * g 0 ^ 2) (b := m * g 1 ^ 2) (c := m * g 2 ^ 2) (m := m) (by positivity) (by positivity) (by positivity) hm
    refine ⟨?_, fun x => ?_⟩
    · simp only [Matrix.transpose_mul, Matrix.transpose_transpose, hd.1, Matrix.mul_assoc]
    · rw [show (adjointBody H)ᵀ * (diag6 (m * g 0 ^ 2) (m * g 1 ^ 2) (m * g 2 ^ 2) m * adjointBody H) =
        transportBody (diag6 (m * g 0 ^ 2) (m * g 1 ^ 2) (m * g 2 ^ 2) m) H from rfl, C14_energy]
      exact hd.2 _
  exact ⟨_, H, h1, h2, rfl, hM, hp, ismass_psd hM hp⟩

section
variable {S : RS} {F : Forest (FrameRef × ℕ × FrameRef) ℕ}

/-- what `add_body` of human36 gives -/
structure Spec.HasBody (S' : RS) (b : ℕ) (name : String) (m : ℝ) (c g : Vec3) : Prop where
  name : S'.bname b = some name
  mass : IsRigidMass (S'.mass b) m c (m • (Matrix.diagonal ![g 0 ^ 2, g 1 ^ 2, g 2 ^ 2] - skew c * skew c))
  psd : SymPSD (S'.mass b)

lemma Spec.HasBody.keep {S S' : RS} (hk : Keeps S S') {b name m c g} (hb : b < S.nb) (h : HasBody S b name m c g) : HasBody S' b name m c g := by
  obtain ⟨e1, e2⟩ := hk.body b hb
  exact ⟨by rw [e2]; exact h.name, by rw [e1]; exact h.mass, by rw [e1]; exact h.psd⟩

lemma bodies_runs (pre : String) (rows : List (String × ℝ × Vec3 × Vec3)) : ∀ {S : RS}, Good S F → (∀ r ∈ rows, 0 ≤ r.2.1) →
    ∃ S', Runs (each (humanAddBody pre) rows) S (numbered S.nb (rows.map fun r => pre ++ r.1)) S' ∧ Good S' F ∧ Keeps S S' ∧
      KeepsFresh S S' [] [] ∧ S'.nb = S.nb + rows.length ∧ S'.nj = S.nj ∧ S'.ns = S.ns ∧ S'.nsh = S.nsh ∧
      ∀ k (hk : k < rows.length), FreshBody S'.w (S.nb + k) ∧
        HasBody S' (S.nb + k) (pre ++ rows[k].1) rows[k].2.1 rows[k].2.2.1 rows[k].2.2.2 := by
  induction rows with
  | nil => intro S hg _; exact ⟨S, Runs.pure _ _, hg, .refl S, .refl S, rfl, rfl, rfl, rfl, fun k hk => absurd hk (by simp)⟩
  | cons r rows ih =>
    intro S hg hpos
    obtain ⟨M, H, eH, eA, eM, hM, hp, hm⟩ := gyrMass (hpos r List.mem_cons_self) r.2.2.1 r.2.2.2
    obtain ⟨S1, r1, g1, k1, f1, fb, m1, nm1, b1, j1, s1, sh1, _⟩ := newBody_runs hg (some (pre ++ r.1)) (mass := some M) (.inr hm)
    obtain ⟨S', r2, g2, k2, f2, b2, j2, s2, sh2, facts⟩ := ih g1 (fun r hr => hpos r (List.mem_cons_of_mem _ hr))
    refine ⟨S', ?_, g2, k1.trans k2, f1.trans f2, by simp; omega, by omega, by omega, by omega, ?_⟩
    · rw [b1] at r2
      have : Runs (humanAddBody pre r) S (pre ++ r.1, S.nb) S1 := by
        subst eM
        exact (Runs.liftE eH S).bind ((Runs.liftE eA S).bind (r1.bind (Runs.pure _ _)))
      exact this.bind (r2.bind (Runs.pure _ _))
    · intro k hk
      rcases k with _ | k
      · refine ⟨f2.body _ fb (by simp), HasBody.keep k2 (by omega) ⟨nm1, ?_, ?_⟩⟩
        · rw [Nat.add_zero, m1]; exact hM
        · rw [Nat.add_zero, m1]; exact hp
      · have := facts k (by simpa using hk)
        rw [b1, Nat.add_assoc, Nat.add_comm 1 k] at this
        exact this

/-- what `add_link` of human36 gives -/
structure Spec.HasLink (S' : RS) (j f p : ℕ) (a : JAttr) (name : Option String) (H : Mat4) : Prop where
  joint : S'.jattr j = a
  ndof : S'.o.ndof j = a.ndof
  name : S'.jname j = name
  pose : S'.bpose f = H
  onBody : S'.o.subBody f = p

lemma Spec.HasLink.keep {S S' : RS} (hk : Keeps S S') {j f p a name H} (hj : j < S.nj) (hf : f < S.ns) (h : HasLink S j f p a name H) :
    HasLink S' j f p a name H := by
  obtain ⟨e1, e2, e3⟩ := hk.joint j hj
  obtain ⟨d1, d2, d3⟩ := hk.sub f hf
  exact ⟨by rw [e1]; exact h.joint, by rw [e3]; exact h.ndof, by rw [e2]; exact h.name, by rw [d1]; exact h.pose, by rw [d3]; exact h.onBody⟩

lemma links_runs (pre : String) (bodies : List (String × ℕ)) (rows : List (Option String × Vec3 × JAttr × String × String)) :
    ∀ {S : RS} {G : Forest (FrameRef × ℕ × FrameRef) ℕ} {B : List ℕ} {pc : List (ℕ × ℕ)}, Good S G → (∀ b ∈ B, b ∈ S.w.ground :: G.bodies) →
    List.Forall₂ (fun r x => (match r.1 with | none => x.1 = S.w.ground | some n => bodies.lookup (pre ++ n) = some x.1) ∧
      bodies.lookup (pre ++ r.2.2.2.2) = some x.2) rows pc → Ready S B pc →
    ∃ S' v, Runs (each (humanAddLink pre bodies) rows) S v S' ∧ Good S' (putAll S.w.ground G S.nj S.ns pc) ∧ Keeps S S' ∧
      S'.nb = S.nb ∧ S'.nj = S.nj + rows.length ∧ S'.ns = S.ns + rows.length ∧ S'.nsh = S.nsh ∧
      ∀ k (hk : k < rows.length) (hk' : k < pc.length), HasLink S' (S.nj + k) (S.ns + k) pc[k].1 rows[k].2.2.1 (some (pre ++ rows[k].2.2.2.1))
        (transl (rows[k].2.1 0) (rows[k].2.1 1) (rows[k].2.1 2)) := by
  induction rows with
  | nil =>
    intro S G B pc hg _ h2 _
    cases h2
    exact ⟨S, _, Runs.pure _ _, hg, .refl S, rfl, rfl, rfl, rfl, fun k hk => absurd hk (by simp)⟩
  | cons r rows ih =>
    intro S G B pc hg hB h2 hR
    cases h2 with
    | @cons _ x _ pc hx hrest =>
    obtain ⟨hx1, hx2⟩ := hx
    obtain ⟨y1, y2, y3, y4, y5⟩ := hR
    obtain ⟨S1, r1, g1, k1, f1, fj, a1, n1, d1, b1, j1, s1, sh1, _⟩ := newJoint_runs hg r.2.2.1 (some (pre ++ r.2.2.2.1))
    obtain ⟨S2, r2, g2, k2, f2, o2, p2, _, b2, j2, s2, sh2, w2⟩ := newSub_runs g1 x.1 (C01_transl (r.2.1 0) (r.2.1 1) (r.2.1 2)).ishom none
    have hgr2 : S2.w.ground = S.w.ground := (k1.trans k2).ground
    obtain ⟨w3, r3, g3, k3, f3, kn3⟩ := link_runs g2 (f0 := .sub S1.ns) (j := S.nj) (b := x.2) (by change S1.ns < S2.ns; omega)
      (by rw [hgr2]; simp only [Objs.bodyOf, o2]; exact hB _ y1) (by rw [w2]; exact fj) (by omega)
      (by rw [(k2.joint S.nj (by omega)).2.2, (k2.joint S.nj (by omega)).1, d1, a1]) ((f1.trans f2).body _ y2 (by simp)) (by omega)
    have hgraft : graft S2.o S2.w.ground G (.sub S1.ns, S.nj, .body x.2) = put S.w.ground G x.1 (.sub S.ns, S.nj, .body x.2) x.2 := by
      simp only [graft, put, Objs.bodyOf, hgr2]
      rw [o2, s1]
    rw [hgraft] at g3
    generalize hS3 : ({ S2 with w := w3 } : RS) = S3 at r3 g3 k3 f3
    have n3 : S3.nb = S.nb ∧ S3.nj = S.nj + 1 ∧ S3.ns = S.ns + 1 ∧ S3.nsh = S.nsh := by
      subst hS3; simp only; omega
    obtain ⟨e1, e2, e3, e4⟩ := n3
    have k03 := (k1.trans k2).trans k3
    have hgr : S3.w.ground = S.w.ground := k03.ground
    have hmem : ∀ b, b ∈ x.2 :: B → b ∈ S3.w.ground :: (put S.w.ground G x.1 (.sub S.ns, S.nj, .body x.2) x.2).bodies := by
      have hp : ∃ p, (S2.o.bodyOf (.sub S1.ns) = S2.w.ground ∧ p = []) ∨ (S2.o.bodyOf (.sub S1.ns), p) ∈ G.paths := by
        have : S2.o.bodyOf (.sub S1.ns) ∈ S2.w.ground :: G.bodies := by simp only [Objs.bodyOf, o2, hgr2]; exact hB _ y1
        rcases List.mem_cons.mp this with h | h
        · exact ⟨[], .inl ⟨h, rfl⟩⟩
        · obtain ⟨p, hp⟩ := (Forest.mem_bodies_iff _ _).mp h
          exact ⟨p, .inr hp⟩
      obtain ⟨p, hp⟩ := hp
      have q := (C80_paths (j := S.nj) (f1 := .body x.2) g2.tree hp).1
      rw [hgraft] at q
      intro b hb
      rw [hgr, List.mem_cons, q.mem_iff, List.mem_append, List.mem_singleton]
      rcases List.mem_cons.mp hb with rfl | hb
      · exact .inr (.inr rfl)
      · rcases List.mem_cons.mp (hB b hb) with h | h
        · exact .inl h
        · exact .inr (.inl h)
    have f03 := (f1.trans f2).trans f3
    obtain ⟨S', v, r4, g4, k4, b4, j4, s4, sh4, facts⟩ := ih g3 hmem (by rw [hgr]; exact hrest)
      (Ready.mono (c := x.2) (by omega) (fun b hb hne => f03.body b hb (by simpa using hne)) y5 y4)
    refine ⟨S', () :: v, ?_, by rw [hgr, e2, e3] at g4; exact g4, k03.trans k4, by omega, by simp; omega, by simp; omega, by omega, ?_⟩
    · have hget : Runs (humanParent pre bodies r.1) S1 x.1 S1 := by
        cases hr : r.1 with
        | none =>
          simp only [hr] at hx1
          rw [hx1, ← k1.ground]
          rfl
        | some n =>
          simp only [hr] at hx1
          exact byName_runs hx1 S1
      have : Runs (humanAddLink pre bodies r) S () S3 := by
        refine r1.bind (Spec.Runs.bind hget (r2.bind ((byName_runs hx2 S2).bind r3)))
      exact this.bind (r4.bind (Runs.pure _ _))
    · intro k hk hk'
      rcases k with _ | k
      · refine HasLink.keep k4 (by omega) (by omega) ⟨?_, ?_, ?_, ?_, ?_⟩
        · simp only [Nat.add_zero, List.getElem_cons_zero]
          rw [((k2.trans k3).joint S.nj (by omega)).1, a1]
        · simp only [Nat.add_zero, List.getElem_cons_zero]
          rw [((k2.trans k3).joint S.nj (by omega)).2.2, d1]
        · simp only [Nat.add_zero, List.getElem_cons_zero]
          rw [((k2.trans k3).joint S.nj (by omega)).2.1, n1]
        · simp only [Nat.add_zero, List.getElem_cons_zero]
          rw [(k3.sub S.ns (by omega)).1, ← s1, p2]
        · simp only [Nat.add_zero, List.getElem_cons_zero]
          rw [(k3.sub S.ns (by omega)).2.2, ← s1, o2]
      · have := facts k (by simpa using hk) (by simpa using hk')
        rw [e2, e3, Nat.add_assoc, Nat.add_comm 1 k, Nat.add_assoc, Nat.add_comm 1 k] at this
        exact this

/-- what `add_tag` of human36 gives -/
structure Spec.HasTag (S' : RS) (f b : ℕ) (name : String) (H : Mat4) : Prop where
  known : Known S'.w (.sub f)
  name : S'.fname f = some name
  pose : S'.bpose f = H
  onBody : S'.o.subBody f = b

lemma Spec.HasTag.keep {S S' : RS} (hk : Keeps S S') {f b name H} (hf : f < S.ns) (h : HasTag S f b name H) : HasTag S' f b name H := by
  obtain ⟨d1, d2, d3⟩ := hk.sub f hf
  exact ⟨hk.subframes _ h.known, by rw [d2]; exact h.name, by rw [d1]; exact h.pose, by rw [d3]; exact h.onBody⟩

lemma tags_runs (pre : String) (bodies : List (String × ℕ)) (rows : List (String × String × Vec3)) :
    ∀ {S : RS} {bs : List ℕ}, Good S F → List.Forall₂ (fun r b => bodies.lookup (pre ++ r.2.1) = some b) rows bs →
    ∃ S', Runs (each (humanAddTag pre bodies) rows) S (numbered S.ns (rows.map fun r => pre ++ r.1)) S' ∧ Good S' F ∧ Keeps S S' ∧
      S'.nb = S.nb ∧ S'.nj = S.nj ∧ S'.ns = S.ns + rows.length ∧ S'.nsh = S.nsh ∧
      ∀ k (hk : k < rows.length) (hk' : k < bs.length), HasTag S' (S.ns + k) bs[k] (pre ++ rows[k].1)
        (transl (rows[k].2.2 0) (rows[k].2.2 1) (rows[k].2.2 2)) := by
  induction rows with
  | nil => intro S bs hg h2; cases h2; exact ⟨S, Runs.pure _ _, hg, .refl S, rfl, rfl, rfl, rfl, fun k hk => absurd hk (by simp)⟩
  | cons r rows ih =>
    intro S bs hg h2
    cases h2 with
    | @cons _ b _ bs hb hrest =>
    obtain ⟨S2, r2, g2, k2, f2, o2, p2, nm2, b2, j2, s2, sh2, w2⟩ := newSub_runs hg b (C01_transl (r.2.2 0) (r.2.2 1) (r.2.2 2)).ishom (some (pre ++ r.1))
    obtain ⟨w3, r3, g3, k3, f3, kn3⟩ := regFrame_runs g2 (.sub S.ns)
    obtain ⟨S3, hS3⟩ : ∃ S3 : RS, S3 = { S2 with w := w3 } := ⟨_, rfl⟩
    have kn3' : Known S3.w (.sub S.ns) := by rw [hS3]; exact kn3
    rw [← hS3] at r3 g3 k3
    have n3 : S3.nb = S2.nb ∧ S3.nj = S2.nj ∧ S3.ns = S2.ns ∧ S3.nsh = S2.nsh := by rw [hS3]; exact ⟨rfl, rfl, rfl, rfl⟩
    obtain ⟨e1, e2, e3, e4⟩ := n3
    obtain ⟨S', r4, g4, k4, b4, j4, s4, sh4, facts⟩ := ih g3 hrest
    refine ⟨S', ?_, g4, (k2.trans k3).trans k4, by omega, by omega, by simp; omega, by omega, ?_⟩
    · rw [e3, s2] at r4
      have : Runs (humanAddTag pre bodies r) S (pre ++ r.1, S.ns) S3 :=
        (byName_runs hb S).bind (r2.bind (r3.bind (Runs.pure _ _)))
      exact this.bind (r4.bind (Runs.pure _ _))
    · intro k hk hk'
      rcases k with _ | k
      · refine HasTag.keep k4 (by omega) ⟨kn3', ?_, ?_, ?_⟩
        · rw [hS3]; exact nm2
        · rw [hS3]; exact p2
        · rw [hS3]; exact o2
      · have := facts k (by simpa using hk) (by simpa using hk')
        rw [e3, s2, Nat.add_assoc, Nat.add_comm 1 k] at this
        exact this

lemma points_runs (pre : String) (tags : List (String × ℕ)) (rows : List String) :
    ∀ {S : RS} {fs : List ℕ}, Good S F → List.Forall₂ (fun r f => tags.lookup (pre ++ r) = some f) rows fs →
    ∃ S' v, Runs (each (humanAddPoint pre tags) rows) S v S' ∧ Good S' F ∧ Keeps S S' ∧
      S'.nb = S.nb ∧ S'.nj = S.nj ∧ S'.ns = S.ns ∧ S'.nsh = S.nsh + rows.length ∧
      ∀ k (hk : k < rows.length) (hk' : k < fs.length), S.nsh + k ∈ S'.w.shapes ∧ S'.o.shapeFrame (S.nsh + k) = .sub fs[k] ∧
        S'.geo (S.nsh + k) = .point ∧ S'.shname (S.nsh + k) = some (pre ++ rows[k]) := by
  induction rows with
  | nil => intro S bs hg h2; cases h2; exact ⟨S, _, Runs.pure _ _, hg, .refl S, rfl, rfl, rfl, rfl, fun k hk => absurd hk (by simp)⟩
  | cons r rows ih =>
    intro S fs hg h2
    cases h2 with
    | @cons _ b _ bs hb hrest =>
    obtain ⟨S2, r2, g2, k2, f2, o2, p2, nm2, b2, j2, s2, sh2, w2⟩ := newShape_runs hg (.sub b) (g := .point) trivial (some (pre ++ r))
    obtain ⟨w3, r3, g3, k3, f3, hm3, kn3⟩ := regShape_runs g2 S.nsh
    obtain ⟨S', v, r4, g4, k4, b4, j4, s4, sh4, facts⟩ := ih g3 hrest
    simp only at b4 j4 s4 sh4 facts
    refine ⟨S', () :: v, ?_, g4, (k2.trans k3).trans k4, by omega, by omega, by omega, by simp; omega, ?_⟩
    · have : Runs (humanAddPoint pre tags r) S () { S2 with w := w3 } :=
        (byName_runs hb S).bind (r2.bind r3)
      exact this.bind (r4.bind (Runs.pure _ _))
    · intro k hk hk'
      rcases k with _ | k
      · obtain ⟨q1, q2, q3⟩ := k4.shape S.nsh (by simp only; omega)
        simp only [Nat.add_zero, List.getElem_cons_zero]
        exact ⟨k4.shapes _ hm3, by rw [q3]; exact o2, by rw [q1]; exact p2, by rw [q2]; exact nm2⟩
      · have := facts k (by simpa using hk) (by simpa using hk')
        rw [sh2, Nat.add_assoc, Nat.add_comm 1 k] at this
        exact this

end

end Arboris
