import Verif.Model.Robots
import Verif.Proofs.Build
import Verif.Props.Tree
import Verif.Props.Mass

/-!
# C73: snake, planar arm, simple shapes
-/

namespace Arboris
open Graph Spec Build Matrix Real

/-! ### Specification -/

/-- A chain of `n` new bodies: the first is hung to the frame `fr` by joint `nj`, each following one to a frame
`ns`, `ns + 1`, … of the preceding body by the next joint.  Bodies are numbered from `nb`. -/
def Spec.serial : FrameRef → ℕ → ℕ → ℕ → ℕ → List ((FrameRef × ℕ × FrameRef) × ℕ)
  | _, _, _, _, 0 => []
  | fr, nb, nj, ns, n + 1 => ((fr, nj, .body nb), nb) :: serial (.sub ns) (nb + 1) (nj + 1) (ns + 1) n

/-- Textbook pose of link `k` of a planar serial chain of revolute joints about `z`, links along `y`: with the headings
`θ_i = q_0 + … + q_i`, the orientation is the rotation of angle `θ_k` and the origin is the sum over the preceding
links of `len_i (-sin θ_i, cos θ_i, 0)`. -/
noncomputable def Spec.planarPose (q len : ℕ → ℝ) (k : ℕ) : Mat4 :=
  let θ := fun i => ∑ m ∈ Finset.range (i + 1), q m
  mkH !![cos (θ k), -sin (θ k), 0; sin (θ k), cos (θ k), 0; 0, 0, 1]
    (∑ i ∈ Finset.range k, len i • ![-sin (θ i), cos (θ i), 0])

/-! ### Lemmas -/

lemma Rz_mul (a b : ℝ) : Rz a * Rz b = Rz (a + b) := by
  ext i j; fin_cases i <;> fin_cases j <;> simp [Rz, Matrix.mul_apply, Fin.sum_univ_three, cos_add, sin_add] <;> ring

lemma Rz_dir (a b : ℝ) : Rz a *ᵥ ![-sin b, cos b, 0] = ![-sin (a + b), cos (a + b), 0] := by
  ext i; fin_cases i <;> simp [Rz, Matrix.mulVec, dotProduct, Fin.sum_univ_three, cos_add, sin_add] <;> ring

lemma planarPose_succ (q len : ℕ → ℝ) (k : ℕ) :
    rotz (q 0) * transl 0 (len 0) 0 * planarPose (fun i => q (i + 1)) (fun i => len (i + 1)) k = planarPose q len (k + 1) := by
  have hθ : ∀ i, ∑ m ∈ Finset.range (i + 1 + 1), q m = q 0 + ∑ m ∈ Finset.range (i + 1), q (m + 1) := by
    intro i; rw [Finset.sum_range_succ' _ (i + 1), add_comm]
  simp only [planarPose]
  rw [rotz_eq, transl_eq, mkH_mul, mkH_mul, hθ k]
  congr 1
  · rw [Matrix.mul_one]
    exact Rz_mul _ _
  · rw [Finset.sum_range_succ', Matrix.mul_one, Matrix.mulVec_sum, add_zero]
    congr 1
    · apply Finset.sum_congr rfl
      intro i _
      rw [Matrix.mulVec_smul, Rz_dir, hθ i]
    · rw [show (![0, len 0, 0] : Vec3) = len 0 • ![-sin 0, cos 0, 0] by ext i; fin_cases i <;> simp, Matrix.mulVec_smul, Rz_dir]
      simp

lemma planarPose_zero (q len : ℕ → ℝ) : planarPose q len 0 = rotz (q 0) := by
  rw [rotz_eq]; simp [planarPose, Rz]

lemma invBody_one : invBody (1 : Mat4) = 1 := by
  have := isRigid_one.mul_invBody
  rwa [Matrix.one_mul] at this

lemma updateGeometric_append {B : Type} (P : Mat4) (F G : Forest Link B) :
    updateGeometric P (F.append G) = updateGeometric P F ++ updateGeometric P G := by
  induction F generalizing P with
  | nil => rfl
  | cons l b ch sib _ ih => simp [Forest.append, updateGeometric, ih]

lemma map_append {L B L' B' : Type} (f : L → L') (g : B → B') (F G : Forest L B) : (F.append G).map f g = (F.map f g).append (G.map f g) := by
  induction F with
  | nil => rfl
  | cons l b ch sib _ ih => simp [Forest.append, Forest.map, ih]

lemma serial_poses (S : RS) (att : ℕ → JAttr) (n : ℕ) : ∀ (q dq len : ℕ → ℝ) (fr : FrameRef) (nb nj ns : ℕ) (P : Mat4),
    (∀ k < n, att (nj + k) = .lin .Rz (fun _ => q k) (fun _ => dq k)) → (∀ k < n, S.bpose (ns + k) = transl 0 (len k) 0) →
    updateGeometric P ((Forest.chain (serial fr nb nj ns n)).map (S.linkWith att) id) =
      (List.range n).map fun k => (nb + k, P * S.bposeOf fr * planarPose q len k) := by
  induction n with
  | zero => intros; rfl
  | succ n ih =>
    intro q dq len fr nb nj ns P hq hb
    have h0 : geoStep P (S.linkWith att (fr, nj, .body nb)) = P * S.bposeOf fr * rotz (q 0) := by
      have := hq 0 (by omega)
      rw [Nat.add_zero] at this
      simp only [geoStep, relPose, RS.linkWith, RS.bposeOf, invBody_one]
      rw [this]
      simp [JAttr.val, LinKind.val, LinKind.pose, Matrix.mul_assoc]
    have hs : S.bpose ns = transl 0 (len 0) 0 := by have := hb 0 (by omega); rwa [Nat.add_zero] at this
    rw [List.range_succ_eq_map, List.map_cons, List.map_map]
    simp only [serial, Forest.chain, Forest.map, updateGeometric, List.append_nil, h0, id]
    rw [ih (fun k => q (k + 1)) (fun k => dq (k + 1)) (fun k => len (k + 1)) (.sub ns) (nb + 1) (nj + 1) (ns + 1) _
      (fun k hk => by have := hq (k + 1) (by omega); rwa [← Nat.add_assoc, Nat.add_right_comm] at this)
      (fun k hk => by have := hb (k + 1) (by omega); rwa [← Nat.add_assoc, Nat.add_right_comm] at this)]
    rw [planarPose_zero]
    congr 1
    apply List.map_congr_left
    intro k _
    simp only [Function.comp]
    rw [show nb + 1 + k = nb + k.succ by omega, ← planarPose_succ q len k]
    simp only [RS.bposeOf, hs, Matrix.mul_assoc]

/-! ### masses -/

lemma ismass_semi {M : Mat6} (h : ismassmatrix M) : ismassmatrix M true :=
  ⟨h.1, h.2.1, fun l hl => by simpa using le_of_lt (by simpa using h.2.2 l hl)⟩

/-- the mass matrix of a snake link: mass `m`, centre of mass at the middle `(0, len/2, 0)`, inertia of a cylinder of
length `len` and radius `len/5` along `y` -/
lemma snakeMass {len m : ℝ} (hl : 0 < len) (hm : 0 < m) :
    ∃ M, transport (massCylinder len (len / 5) m) (rotx (π / 2) * transl 0 (-len / 2) 0) = .ok M ∧
      ismassmatrix M true ∧ SymPD M ∧ IsRigidMass M m ![0, len / 2, 0] (Matrix.diagonal ![m * ((len / 5) ^ 2 / 4 + len ^ 2 / 12) + m * (len / 2) ^ 2,
        m * (len / 5) ^ 2 / 2, m * ((len / 5) ^ 2 / 4 + len ^ 2 / 12) + m * (len / 2) ^ 2]) := by
  have hH : IsRigid (rotx (π / 2) * transl 0 (-len / 2) 0) := (C01_rotx _).mul (C01_transl _ _ _)
  obtain ⟨_, hpd, him⟩ := C13_shapes (x := 1) (y := 1) (z := 1) (r := len / 5) one_pos one_pos one_pos (by positivity) hl hm
    (massCylinder len (len / 5) m) (by simp)
  have hr : IsRigidMass (transportBody (massCylinder len (len / 5) m) (rotx (π / 2) * transl 0 (-len / 2) 0)) m ![0, len / 2, 0]
      (Matrix.diagonal ![m * ((len / 5) ^ 2 / 4 + len ^ 2 / 12) + m * (len / 2) ^ 2,
        m * (len / 5) ^ 2 / 2, m * ((len / 5) ^ 2 / 4 + len ^ 2 / 12) + m * (len / 2) ^ 2]) := by
    refine ⟨Matrix.diagonal_transpose _, ?_⟩
    simp only [transportBody, massCylinder]
    rw [(diag6_rigid _ _ _ _).eq, rotx_eq, transl_eq, mkH_mul, adjointBody_mkH, blk_transpose, blk_mul, blk_mul, skew_zero]
    congr 1 <;> ext i j <;> fin_cases i <;> fin_cases j <;>
      simp [Rx, skew, Matrix.mul_apply, Fin.sum_univ_three, Matrix.mulVec, dotProduct, Matrix.vecHead, Matrix.vecTail, Matrix.diagonal] <;> ring
  have hp := C14_symPD hpd hH
  exact ⟨_, C14_succeeds him hH, ismass_semi (ismass_of hr hp), hp, hr⟩

/-- the mass matrix of a segment of the arm: mass `m`, centre of mass at the middle `(0, len/2, 0)`, inertia of a box of
half extents `len/20, len/2, len/20` -/
lemma armMass {len m : ℝ} (hl : 0 < len) (hm : 0 < m) :
    ∃ M, transport (massBox (len / 20) (len / 2) (len / 20) m) (transl 0 (-len / 2) 0) = .ok M ∧
      ismassmatrix M true ∧ SymPD M ∧ IsRigidMass M m ![0, len / 2, 0] (Matrix.diagonal ![m / 3 * ((len / 2) ^ 2 + (len / 20) ^ 2) + m * (len / 2) ^ 2,
        m / 3 * ((len / 20) ^ 2 + (len / 20) ^ 2), m / 3 * ((len / 20) ^ 2 + (len / 2) ^ 2) + m * (len / 2) ^ 2]) := by
  have hH : IsRigid (transl 0 (-len / 2) 0) := C01_transl _ _ _
  obtain ⟨_, hpd, him⟩ := C13_shapes (x := len / 20) (y := len / 2) (z := len / 20) (r := 1) (L := 1) (by positivity) (by positivity)
    (by positivity) one_pos one_pos hm (massBox (len / 20) (len / 2) (len / 20) m) (by simp)
  have hr : IsRigidMass (transportBody (massBox (len / 20) (len / 2) (len / 20) m) (transl 0 (-len / 2) 0)) m ![0, len / 2, 0]
      (Matrix.diagonal ![m / 3 * ((len / 2) ^ 2 + (len / 20) ^ 2) + m * (len / 2) ^ 2,
        m / 3 * ((len / 20) ^ 2 + (len / 20) ^ 2), m / 3 * ((len / 20) ^ 2 + (len / 2) ^ 2) + m * (len / 2) ^ 2]) := by
    refine ⟨Matrix.diagonal_transpose _, ?_⟩
    simp only [transportBody, massBox]
    rw [(diag6_rigid _ _ _ _).eq, transl_eq, adjointBody_mkH, blk_transpose, blk_mul, blk_mul, skew_zero]
    congr 1 <;> ext i j <;> fin_cases i <;> fin_cases j <;>
      simp [skew, Matrix.mul_apply, Fin.sum_univ_three, Matrix.diagonal] <;> ring
  have hp := C14_symPD hpd hH
  exact ⟨_, C14_succeeds him hH, ismass_semi (ismass_of hr hp), hp, hr⟩


/-! ### chains -/


/-- the last body of a chain, or the ground -/
def Spec.EndOf (S : RS) (xs : List ((FrameRef × ℕ × FrameRef) × ℕ)) (fr : FrameRef) : Prop :=
  (xs = [] ∧ S.o.bodyOf fr = S.w.ground) ∨ ∃ ys l, xs = ys ++ [(l, S.o.bodyOf fr)]

lemma graft_chain {S : RS} {F : Forest (FrameRef × ℕ × FrameRef) ℕ} {xs} (hg : Good S (F.append (.chain xs))) {fr : FrameRef}
    (he : EndOf S xs fr) (j b : ℕ) :
    graft S.o S.w.ground (F.append (.chain xs)) (fr, j, .body b) = F.append (.chain (xs ++ [((fr, j, .body b), b)])) ∧
      S.o.bodyOf fr ∈ S.w.ground :: (F.append (.chain xs)).bodies := by
  rcases he with ⟨rfl, h⟩ | ⟨ys, l, h⟩
  · rw [graft, if_pos h]
    refine ⟨?_, by rw [h]; exact List.mem_cons_self⟩
    simp [Forest.snoc_eq, Forest.chain, Forest.append_nil, Objs.bodyOf]
  · have hn := hg.tree.bodies_nodup
    have hm : S.o.bodyOf fr ∈ (F.append (.chain xs)).bodies := by
      rw [Forest.bodies_append, Forest.bodies_chain, h]; simp
    have hne : S.o.bodyOf fr ≠ S.w.ground := fun e => (List.nodup_cons.mp hn).1 (e ▸ hm)
    rw [graft, if_neg hne]
    have hn' := (List.nodup_cons.mp hn).2
    rw [Forest.bodies_append, Forest.bodies_chain, h, List.map_append, List.nodup_append] at hn'
    obtain ⟨n1, n2, n3⟩ := hn'
    rw [List.nodup_append] at n2
    refine ⟨?_, List.mem_cons_of_mem _ hm⟩
    subst h
    rw [Forest.hang_append, Forest.hang_notMem (fun e => n3 _ e _ (List.mem_append_right _ (by simp)) rfl),
      Forest.hang_chain ys (l, S.o.bodyOf fr) _ _ (fun e => n2.2.2 _ e _ (by simp) rfl)]
    simp [Objs.bodyOf]

/-- what is known of the segments of a chain made of new objects of state `S` -/
structure Spec.Segment (S S' : RS) (k : ℕ) (len q dq : ℝ) : Prop where
  joint : S'.jattr (S.nj + k) = .lin .Rz (fun _ => q) (fun _ => dq)
  frame : S'.bpose (S.ns + k) = transl 0 len 0
  onBody : S'.o.subBody (S.ns + k) = S.nb + k

lemma snakeLoop_runs {F : Forest (FrameRef × ℕ × FrameRef) ℕ} (items : List (ℝ × ℝ × ℝ × ℝ)) : ∀ {S : RS} {xs} {fr : FrameRef},
    Good S (F.append (.chain xs)) → Old S fr → EndOf S xs fr → (∀ it ∈ items, 0 < it.1 ∧ 0 < it.2.1) →
    ∃ S', Runs (snakeLoop fr items) S (if items = [] then fr else .sub (S.ns + items.length - 1)) S' ∧
      Good S' (F.append (.chain (xs ++ serial fr S.nb S.nj S.ns items.length))) ∧ Keeps S S' ∧
      S'.nb = S.nb + items.length ∧ S'.nj = S.nj + items.length ∧ S'.ns = S.ns + items.length ∧ S'.nsh = S.nsh ∧
      ∀ k (hk : k < items.length), Segment S S' k items[k].1 items[k].2.2.1 items[k].2.2.2 ∧
        IsRigidMass (S'.mass (S.nb + k)) items[k].2.1 ![0, items[k].1 / 2, 0]
          (Matrix.diagonal ![items[k].2.1 * ((items[k].1 / 5) ^ 2 / 4 + items[k].1 ^ 2 / 12) + items[k].2.1 * (items[k].1 / 2) ^ 2,
            items[k].2.1 * (items[k].1 / 5) ^ 2 / 2,
            items[k].2.1 * ((items[k].1 / 5) ^ 2 / 4 + items[k].1 ^ 2 / 12) + items[k].2.1 * (items[k].1 / 2) ^ 2]) ∧
        SymPD (S'.mass (S.nb + k)) := by
  induction items with
  | nil =>
    intro S xs fr hg _ _ _
    exact ⟨S, Runs.pure _ _, by simpa [serial] using hg, .refl S, rfl, rfl, rfl, rfl, fun k hk => absurd hk (by simp)⟩
  | cons it items ih =>
    intro S xs fr hg ho he hpos
    obtain ⟨len, m, q, dq⟩ := it
    obtain ⟨h1, h2⟩ := hpos _ List.mem_cons_self
    obtain ⟨M, eM, hM1, hM2, hM3⟩ := snakeMass h1 h2
    obtain ⟨S1, r1, g1, k1, f1, fb, m1, _, b1, j1, s1, sh1, _⟩ := newBody_runs hg none (mass := some M) (.inr hM1)
    obtain ⟨S2, r2, g2, k2, f2, fj, a2, _, d2, b2, j2, s2, sh2, _⟩ := newJoint_runs g1 (.lin .Rz (fun _ => q) (fun _ => dq)) none
    have k12 := k1.trans k2
    have hob : S2.o.bodyOf fr = S.o.bodyOf fr := k12.bodyOf ho
    have he2 : EndOf S2 xs fr := by
      rcases he with ⟨e1, e2⟩ | ⟨ys, l, e⟩
      · exact .inl ⟨e1, by rw [hob, k12.ground]; exact e2⟩
      · exact .inr ⟨ys, l, by rw [hob]; exact e⟩
    obtain ⟨c1, c2⟩ := graft_chain g2 he2 S1.nj S.nb
    have hfb : FreshBody S2.w S.nb := f2.body _ fb (by simp)
    obtain ⟨w3, r3, g3, k3, f3, kn3⟩ := link_runs g2 (k12.old ho) c2 fj (by omega) (by rw [d2, a2]) hfb (by omega)
    rw [c1] at g3
    generalize hS3 : ({ S2 with w := w3 } : RS) = S3 at r3 g3 k3 f3
    have n3 : S3.nb = S.nb + 1 ∧ S3.nj = S.nj + 1 ∧ S3.ns = S.ns ∧ S3.nsh = S.nsh := by
      subst hS3; simp only; omega
    obtain ⟨S4, r4, g4, k4, f4, o4, p4, _, b4, j4, s4, sh4, w4⟩ := newSub_runs g3 S.nb (C01_transl 0 len 0).ishom none
    rw [n3.2.2.1] at r4 o4 p4
    obtain ⟨S', r5, g5, k5, b5, j5, s5, sh5, facts⟩ := ih (S := S4) (fr := .sub S.ns) g4 (by change S.ns < S4.ns; omega)
      (.inr ⟨xs, (fr, S1.nj, .body S.nb), by simp only [Objs.bodyOf, o4]⟩) (fun it hit => hpos it (List.mem_cons_of_mem _ hit))
    have e0 : S4.nb = S.nb + 1 ∧ S4.nj = S.nj + 1 ∧ S4.ns = S.ns + 1 ∧ S4.nsh = S.nsh := by omega
    obtain ⟨e1, e2, e3, e4⟩ := e0
    have k45 := k4.trans k5
    have k35 := k3.trans k45
    have k25 := k2.trans k35
    refine ⟨S', ?_, ?_, k1.trans k25, by simp; omega, by simp; omega, by simp; omega, by omega, ?_⟩
    · rw [if_neg (by simp)]
      have hlast : (if items = [] then FrameRef.sub S.ns else .sub (S4.ns + items.length - 1)) = .sub (S.ns + (items.length + 1) - 1) := by
        split
        · subst_vars; simp
        · congr 1; omega
      rw [hlast] at r5
      simp only [snakeLoop, List.length_cons]
      exact (Runs.liftE eM S).bind (r1.bind (r2.bind (r3.bind (r4.bind r5))))
    · rw [e1, e2, e3, j1, List.append_assoc] at g5
      exact g5
    · intro k hk
      rcases k with _ | k
      · refine ⟨⟨?_, ?_, ?_⟩, ?_, ?_⟩
        · have := (k35.joint S.nj (by omega)).1
          simp only [List.getElem_cons_zero, Nat.add_zero]
          rw [this, ← j1, a2]
        · have := (k5.sub S.ns (by omega)).1
          simp only [List.getElem_cons_zero, Nat.add_zero]
          rw [this, p4]
        · have := (k5.sub S.ns (by omega)).2.2
          simp only [Nat.add_zero]
          rw [this, o4]
        · have := (k25.body S.nb (by omega)).1
          simp only [List.getElem_cons_zero, Nat.add_zero]
          rw [this, m1]
          exact hM3
        · have := (k25.body S.nb (by omega)).1
          simp only [Nat.add_zero]
          rw [this, m1]
          exact hM2
      · have hk' : k < items.length := by simpa using hk
        obtain ⟨⟨t1, t2, t3⟩, t4, t5⟩ := facts k hk'
        rw [e2, Nat.add_assoc, Nat.add_comm 1 k] at t1
        rw [e3, Nat.add_assoc, Nat.add_comm 1 k] at t2
        rw [e3, e1, Nat.add_assoc, Nat.add_comm 1 k, Nat.add_assoc, Nat.add_comm 1 k] at t3
        rw [e1, Nat.add_assoc, Nat.add_comm 1 k] at t4 t5
        exact ⟨⟨t1, t2, t3⟩, t4, t5⟩


lemma depth_append {L B : Type} (F G : Forest L B) : depth (F.append G) = max (depth F) (depth G) := by
  induction F with
  | nil => simp [Forest.append, depth]
  | cons l b ch sib _ ih => simp [Forest.append, depth, ih, max_assoc]

lemma depth_chain {L B : Type} (xs : List (L × B)) : depth (Forest.chain xs) = xs.length := by
  induction xs with
  | nil => rfl
  | cons x xs ih => simp [Forest.chain, depth, ih]

lemma serial_length (n : ℕ) : ∀ fr nb nj ns, (serial fr nb nj ns n).length = n := by
  induction n with
  | zero => intros; rfl
  | succ n ih => intros; simp [serial, ih]

lemma serial_joints (n : ℕ) : ∀ fr nb nj ns, (serial fr nb nj ns n).map (fun x => x.1.2.1) = (List.range n).map (nj + ·) := by
  induction n with
  | zero => intros; rfl
  | succ n ih =>
    intro fr nb nj ns
    rw [List.range_succ_eq_map, List.map_cons, List.map_map]
    simp only [serial, List.map_cons, ih]
    congr 1
    apply List.map_congr_left
    intro k _
    simp only [Function.comp]
    omega

lemma joints_append (F G : Forest (FrameRef × ℕ × FrameRef) ℕ) : joints (F.append G) = joints F ++ joints G := by
  simp [joints, Forest.links_append]

lemma joints_chain (xs : List ((FrameRef × ℕ × FrameRef) × ℕ)) : joints (Forest.chain xs) = xs.map fun x => x.1.2.1 := by
  simp [joints, Forest.links_chain]

lemma ndofSum_append (o : Objs) (a b : List ℕ) : ndofSum o (a ++ b) = ndofSum o a + ndofSum o b := by simp [ndofSum]

lemma ndofSum_const (o : Objs) (c nj n : ℕ) (h : ∀ k < n, o.ndof (nj + k) = c) : ndofSum o ((List.range n).map (nj + ·)) = n * c := by
  rw [ndofSum, List.map_map, List.map_congr_left (g := fun _ => c) (by intro k hk; exact h k (List.mem_range.mp hk))]
  simp

lemma ndofSum_keeps {S S' : RS} (h : Keeps S S') {js : List ℕ} (hj : ∀ j ∈ js, j < S.nj) : ndofSum S'.o js = ndofSum S.o js := by
  rw [ndofSum, ndofSum]
  congr 1
  exact List.map_congr_left fun j hj' => (h.joint j (hj j hj')).2.2

lemma range_split {nj n k : ℕ} (h : k < n) : (List.range n).map (nj + ·) =
    (List.range k).map (nj + ·) ++ (nj + k) :: (List.range (n - k - 1)).map (fun i => nj + (k + 1 + i)) := by
  obtain ⟨m, rfl⟩ : ∃ m, n = k + (m + 1) := ⟨n - k - 1, by omega⟩
  rw [List.range_add, List.map_append, List.range_succ_eq_map, List.map_cons, List.map_map, List.map_cons, List.map_map,
    show k + (m + 1) - k - 1 = m by omega]
  simp [Function.comp_def]
  intro a _
  omega

/-- the numbering of `init` at the end of a chain of one-dof joints -/
lemma chain_dofs {S S' : RS} {F : Forest (FrameRef × ℕ × FrameRef) ℕ} {xs} {fr nb ns n nj} {w' : World}
    (hN : w'.ndof = ndofSum S'.o (joints (F.append (.chain (xs ++ serial fr nb nj ns n)))))
    (hD : ∀ pre j post, joints (F.append (.chain (xs ++ serial fr nb nj ns n))) = pre ++ j :: post →
      (w'.joint j).dof = some (ndofSum S'.o pre, ndofSum S'.o pre + S'.o.ndof j)) (hF : ndofSum S'.o (joints F) = ndofSum S.o (joints F))
    (h1 : ∀ k < n, S'.o.ndof (nj + k) = 1) :
    w'.ndof = ndofSum S.o (joints F) + ndofSum S'.o (xs.map fun x => x.1.2.1) + n ∧
    ∀ k < n, (w'.joint (nj + k)).dof = some (ndofSum S.o (joints F) + ndofSum S'.o (xs.map fun x => x.1.2.1) + k,
      ndofSum S.o (joints F) + ndofSum S'.o (xs.map fun x => x.1.2.1) + k + 1) := by
  have hJ : joints (F.append (.chain (xs ++ serial fr nb nj ns n))) =
      joints F ++ (xs.map fun x => x.1.2.1) ++ (List.range n).map (nj + ·) := by
    rw [joints_append, joints_chain, List.map_append, serial_joints, List.append_assoc]
  constructor
  · rw [hN, hJ, ndofSum_append, ndofSum_append, ndofSum_const _ 1 _ _ h1, hF, mul_one]
  · intro k hk
    have := hD (joints F ++ (xs.map fun x => x.1.2.1) ++ (List.range k).map (nj + ·)) (nj + k)
      ((List.range (n - k - 1)).map (fun i => nj + (k + 1 + i))) (by rw [hJ, range_split hk]; simp only [List.append_assoc])
    rw [this, h1 k hk, ndofSum_append, ndofSum_append, ndofSum_const _ 1 _ _ (fun i hi => h1 i (hi.trans hk)), hF, mul_one]

/-! ### C73: the snake -/

/-- the `zip` of the arguments: the data of link `k` -/
lemma zip4 {ls ms qs dqs : List ℝ} {n : ℕ} (h1 : ls.length = n) (h2 : ms.length = n) (h3 : qs.length = n) (h4 : dqs.length = n) :
    (ls.zip (ms.zip (qs.zip dqs))).length = n := by simp [h1, h2, h3, h4]

/-- what the user is told of the `k`-th link of a snake whose bodies, joints and frames are numbered from `nb`, `nj`, `ns`:
joint about `z` with the requested state, the next joint at the end of the link, mass, centre of mass in the middle,
inertia of a cylinder along `y`, dof -/
structure Spec.SnakeLink (S' : RS) (nb nj ns base k : ℕ) (len m q dq : ℝ) : Prop where
  joint : S'.jattr (nj + k) = .lin .Rz (fun _ => q) (fun _ => dq)
  frame : S'.bpose (ns + k) = transl 0 len 0
  onBody : S'.o.subBody (ns + k) = nb + k
  mass : IsRigidMass (S'.mass (nb + k)) m ![0, len / 2, 0]
    (Matrix.diagonal ![m * ((len / 5) ^ 2 / 4 + len ^ 2 / 12) + m * (len / 2) ^ 2, m * (len / 5) ^ 2 / 2,
      m * ((len / 5) ^ 2 / 4 + len ^ 2 / 12) + m * (len / 2) ^ 2])
  pd : SymPD (S'.mass (nb + k))
  dof : (S'.w.joint (nj + k)).dof = some (base + k, base + k + 1)

lemma snake_tail {S : RS} {F : Forest (FrameRef × ℕ × FrameRef) ℕ} {xs} {fr : FrameRef} (hg : Good S (F.append (.chain xs)))
    (ho : Old S fr) (he : EndOf S xs fr) {ls ms qs dqs : List ℝ} {n lim : ℕ}
    (h1 : ls.length = n) (h2 : ms.length = n) (h3 : qs.length = n) (h4 : dqs.length = n)
    (hl : ∀ x ∈ ls, 0 < x) (hm : ∀ x ∈ ms, 0 < x) (hd : depth F < lim) (hn : xs.length + n < lim) :
    ∃ S', Runs (do let frame ← snakeLoop fr (ls.zip (ms.zip (qs.zip dqs))); reg (.frame frame); init lim) S () S' ∧
      Good S' (F.append (.chain (xs ++ serial fr S.nb S.nj S.ns n))) ∧ Keeps S S' ∧
      S'.w.ndof = ndofSum S.o (joints F) + ndofSum S.o (xs.map fun x => x.1.2.1) + n ∧
      (∀ k (hk : k < n), SnakeLink S' S.nb S.nj S.ns (ndofSum S.o (joints F) + ndofSum S.o (xs.map fun x => x.1.2.1)) k ls[k] ms[k] qs[k] dqs[k]) ∧
      (0 < n → Known S'.w (.sub (S.ns + n - 1))) ∧
      (∀ pre j post, joints (F.append (.chain (xs ++ serial fr S.nb S.nj S.ns n))) = pre ++ j :: post →
        (S'.w.joint j).dof = some (ndofSum S'.o pre, ndofSum S'.o pre + S'.o.ndof j)) := by
  have hz := zip4 h1 h2 h3 h4
  obtain ⟨S1, r1, g1, k1, b1, j1, s1, sh1, facts⟩ := snakeLoop_runs (F := F) (xs := xs) (fr := fr)
    (ls.zip (ms.zip (qs.zip dqs))) (S := S) hg ho he (by
      intro it hit
      obtain ⟨a, b⟩ := List.of_mem_zip (a := it.1) (b := it.2) hit
      exact ⟨hl _ a, hm _ (List.of_mem_zip (a := it.2.1) (b := it.2.2) b).1⟩)
  rw [hz] at g1
  obtain ⟨w2, r2, g2, k2, -, kn⟩ := regFrame_runs g1 (if ls.zip (ms.zip (qs.zip dqs)) = [] then fr else .sub (S.ns + (ls.zip (ms.zip (qs.zip dqs))).length - 1))
  obtain ⟨w3, r3, g3, k3, -, N, D⟩ := init_runs g2 (lim := lim) (by
    rw [depth_append, depth_chain, List.length_append, serial_length]; omega)
  have kk := k1.trans (k2.trans k3)
  have hnd : ∀ k < n, S1.o.ndof (S.nj + k) = 1 := by
    intro k hk
    have hk' : k < (ls.zip (ms.zip (qs.zip dqs))).length := by omega
    have hmem : S.nj + k ∈ joints (F.append (.chain (xs ++ serial fr S.nb S.nj S.ns n))) := by
      rw [joints_append, joints_chain, List.map_append, serial_joints]
      exact List.mem_append_right _ (List.mem_append_right _ (List.mem_map.mpr ⟨k, List.mem_range.mpr hk, rfl⟩))
    rw [g1.ndof _ hmem, (facts k hk').1.joint]
    rfl
  have hj := hg.joints
  rw [joints_append, joints_chain] at hj
  have hx : ndofSum S1.o (xs.map fun x => x.1.2.1) = ndofSum S.o (xs.map fun x => x.1.2.1) :=
    ndofSum_keeps k1 fun j hj' => hj j (List.mem_append_right _ hj')
  obtain ⟨d1, d2⟩ := chain_dofs (S := S) (S' := S1) (xs := xs) N D
    (ndofSum_keeps k1 fun j hj' => hj j (List.mem_append_left _ hj')) hnd
  rw [hx] at d1 d2
  refine ⟨{ S1 with w := w3 }, ?_, g3, kk, d1, ?_, ?_, D⟩
  · exact r1.bind (r2.bind r3)
  · intro k hk
    have hk' : k < (ls.zip (ms.zip (qs.zip dqs))).length := by omega
    obtain ⟨⟨t1, t2, t3⟩, t4, t5⟩ := facts k hk'
    simp only [List.getElem_zip] at t1 t2 t3 t4
    exact ⟨t1, t2, t3, t4, t5, d2 k hk⟩
  · intro hn0
    have : ls.zip (ms.zip (qs.zip dqs)) ≠ [] := by
      intro e; rw [e] at hz; simp at hz; omega
    rw [if_neg this, hz] at kn
    exact k3.subframes _ kn

/-- C73: on any world that is a tree, `add_snake(world, n, lengths, masses, gpos, gvel, is_fixed=True)` with `n` positive
lengths and masses adds, below the ground and after the trees already there, a chain of `n` bodies; the world gets `n` more
dofs, those of the snake being consecutive; nothing else changes. -/
theorem C73_snake_fixed {S : RS} {F : Forest (FrameRef × ℕ × FrameRef) ℕ} (hg : Good S F) {ls ms qs dqs : List ℝ} {n lim : ℕ}
    (h1 : ls.length = n) (h2 : ms.length = n) (h3 : qs.length = n) (h4 : dqs.length = n)
    (hl : ∀ x ∈ ls, 0 < x) (hm : ∀ x ∈ ms, 0 < x) (hd : depth F < lim) (hn : n < lim) :
    ∃ S', Runs (addSnake lim n (some ls) (some ms) (some qs) (some dqs) true) S () S' ∧
      Good S' (F.append (.chain (serial (.body S.w.ground) S.nb S.nj S.ns n))) ∧ Keeps S S' ∧
      S'.w.ndof = ndofSum S.o (joints F) + n ∧
      (∀ k (hk : k < n), SnakeLink S' S.nb S.nj S.ns (ndofSum S.o (joints F)) k ls[k] ms[k] qs[k] dqs[k]) ∧
      (0 < n → Known S'.w (.sub (S.ns + n - 1))) := by
  obtain ⟨S', r, g, k, N, L, K, -⟩ := snake_tail (F := F) (xs := []) (fr := .body S.w.ground) (S := S)
    (by simpa [Forest.chain, Forest.append_nil] using hg) hg.ground (.inl ⟨rfl, rfl⟩) h1 h2 h3 h4 hl hm hd (by simpa using hn)
  refine ⟨S', ?_, g, k, by simpa [ndofSum] using N, by simpa [ndofSum] using L, K⟩
  unfold addSnake
  refine (Runs.check h1.symm S).bind ((Runs.check h2.symm S).bind ((Runs.check h3.symm S).bind ((Runs.check h4.symm S).bind ?_)))
  exact (Runs.ground S).bind r

/-- C73: without `is_fixed`, a cubic base of half extent `lengths[0]/2` and mass `masses[0]` is first hung to the ground by a
free joint at the identity; the world gets `n + 6` more dofs, first those of the base. -/
theorem C73_snake_free {S : RS} {F : Forest (FrameRef × ℕ × FrameRef) ℕ} (hg : Good S F) {ls ms qs dqs : List ℝ} {n lim : ℕ}
    (h1 : ls.length = n) (h2 : ms.length = n) (h3 : qs.length = n) (h4 : dqs.length = n) (h0 : 0 < n)
    (hl : ∀ x ∈ ls, 0 < x) (hm : ∀ x ∈ ms, 0 < x) (hd : depth F < lim) (hn : n + 1 < lim) :
    ∃ S', Runs (addSnake lim n (some ls) (some ms) (some qs) (some dqs) false) S () S' ∧
      Good S' (F.append (.chain (((.body S.w.ground, S.nj, .body S.nb), S.nb) :: serial (.body S.nb) (S.nb + 1) (S.nj + 1) S.ns n))) ∧
      Keeps S S' ∧ S'.w.ndof = ndofSum S.o (joints F) + 6 + n ∧
      S'.jattr S.nj = .free 1 0 ∧ S'.mass S.nb = massBox (ls[0] / 2) (ls[0] / 2) (ls[0] / 2) ms[0] ∧ SymPD (S'.mass S.nb) ∧
      (S'.w.joint S.nj).dof = some (ndofSum S.o (joints F), ndofSum S.o (joints F) + 6) ∧
      (∀ k (hk : k < n), SnakeLink S' (S.nb + 1) (S.nj + 1) S.ns (ndofSum S.o (joints F) + 6) k ls[k] ms[k] qs[k] dqs[k]) ∧
      Known S'.w (.sub (S.ns + n - 1)) := by
  obtain ⟨l0, ls', rfl⟩ : ∃ l0 ls', ls = l0 :: ls' := by cases ls with
    | nil => simp at h1; omega
    | cons a l => exact ⟨a, l, rfl⟩
  obtain ⟨m0, ms', rfl⟩ : ∃ m0 ms', ms = m0 :: ms' := by cases ms with
    | nil => simp at h2; omega
    | cons a l => exact ⟨a, l, rfl⟩
  have hl0 : 0 < l0 / 2 := half_pos (hl _ List.mem_cons_self)
  obtain ⟨_, hpd, him⟩ := C13_shapes (x := l0 / 2) (y := l0 / 2) (z := l0 / 2) (r := 1) (L := 1) hl0 hl0
    hl0 one_pos one_pos (hm _ List.mem_cons_self) (massBox (l0 / 2) (l0 / 2) (l0 / 2) m0) (by simp)
  obtain ⟨S1, r1, g1, k1, f1, fb, m1, _, b1, j1, s1, sh1, _⟩ := newBody_runs hg none (mass := some (massBox (l0 / 2) (l0 / 2) (l0 / 2) m0)) (.inr (ismass_semi him))
  obtain ⟨S2, r2, g2, k2, f2, fj, a2, _, d2, b2, j2, s2, sh2, _⟩ := newJoint_runs g1 (.free 1 0) none
  have k12 := k1.trans k2
  have g2' : Good S2 (F.append (.chain [])) := by simpa [Forest.chain, Forest.append_nil] using g2
  obtain ⟨c1, c2⟩ := graft_chain (fr := .body S2.w.ground) g2' (.inl ⟨rfl, rfl⟩) S1.nj S.nb
  obtain ⟨w3, r3, g3, k3, f3, kn3⟩ := link_runs g2' (f0 := .body S2.w.ground) g2.ground c2 fj (by omega) (by rw [d2, a2]) (f2.body _ fb (by simp)) (by omega)
  rw [c1, List.nil_append] at g3
  generalize hS3 : ({ S2 with w := w3 } : RS) = S3 at r3 g3 k3 f3
  have n3 : S3.nb = S.nb + 1 ∧ S3.nj = S.nj + 1 ∧ S3.ns = S.ns ∧ S3.nsh = S.nsh := by
    subst hS3; simp only; omega
  obtain ⟨S', r, g, k, N, L, K, D⟩ := snake_tail (F := F) (fr := .body S.nb) g3 (by change S.nb < S3.nb; omega)
    (.inr ⟨[], (.body S2.w.ground, S1.nj, .body S.nb), rfl⟩) h1 h2 h3 h4 hl hm hd (by simpa [Nat.add_comm] using hn)
  have k03 := k12.trans k3
  have k24 := k3.trans k
  have k0 := k03.trans k
  have hFn : ndofSum S3.o (joints F) = ndofSum S.o (joints F) := ndofSum_keeps k03 hg.joints
  have h6 : S3.o.ndof S.nj = 6 := by
    rw [(k3.joint S.nj (by omega)).2.2, ← j1, d2]; rfl
  have hx : ndofSum S3.o ([(((.body S2.w.ground, S1.nj, .body S.nb), S.nb) : (FrameRef × ℕ × FrameRef) × ℕ)].map fun x => x.1.2.1) = 6 := by
    simp [ndofSum, j1, h6]
  rw [hFn, hx] at N L
  rw [n3.1, n3.2.1, n3.2.2.1, k12.ground, j1] at g D
  rw [n3.1, n3.2.1, n3.2.2.1] at L
  refine ⟨S', ?_, g, k0, N, ?_, ?_, ?_, ?_, L, by have := K h0; rwa [n3.2.2.1] at this⟩
  · unfold addSnake
    refine (Runs.check h1.symm S).bind ((Runs.check h2.symm S).bind ((Runs.check h3.symm S).bind ((Runs.check h4.symm S).bind ?_)))
    exact r1.bind (r2.bind ((Runs.ground S2).bind (r3.bind ((Runs.pure (FrameRef.body S.nb) S3).bind r))))
  · rw [(k24.joint S.nj (by omega)).1, ← j1, a2]
  · rw [((k2.trans k24).body S.nb (by omega)).1, m1]; rfl
  · rw [((k2.trans k24).body S.nb (by omega)).1, m1]; exact hpd
  · have := D (joints F) S.nj ((serial (.body S.nb) (S.nb + 1) (S.nj + 1) S.ns n).map fun x => x.1.2.1) (by
      rw [joints_append, joints_chain]; rfl)
    rw [this, (k.joint S.nj (by omega)).2.2, h6, ndofSum_keeps k0 hg.joints]

/-- C73: the lists given by default are `n` lengths of 0.5, `n` masses of 2 and zero positions and velocities. -/
theorem C73_snake_defaults (lim n : ℕ) (fixed : Bool) :
    addSnake lim n none none none none fixed = addSnake lim n (some (List.replicate n 0.5)) (some (List.replicate n 2))
      (some (List.replicate n 0)) (some (List.replicate n 0)) fixed := rfl

lemma bind_error {α β : Type} {p : Prog α} {q : α → Prog β} {S : RS} {e : PyErr} (h : p S = .error e) : (p >>= q) S = .error e := by
  change (StateT.bind p q) S = _
  simp only [StateT.bind, h, bind, Except.bind]

lemma Spec.Runs.bind_error {α β : Type} {p : Prog α} {q : α → Prog β} {S S' : RS} {a : α} {e : PyErr} (h : Runs p S a S')
    (h' : q a S' = .error e) : (p >>= q) S = .error e := by
  unfold Runs at *
  change (StateT.bind p q) S = _
  simp only [StateT.bind, h, bind, Except.bind]
  exact h'

/-- C73: a list of the wrong size is an `AssertionError`; an empty snake with a free base is an `IndexError`. -/
theorem C73_snake_errors (S : RS) (lim : ℕ) :
    (∀ (n : ℕ) (ls : List ℝ) (ms qs dqs : Option (List ℝ)) (fixed : Bool), ls.length ≠ n →
      addSnake lim n (some ls) ms qs dqs fixed S = .error .assertion) ∧
    addSnake lim 0 none none none none false S = .error .indexError := by
  constructor
  · intro n ls ms qs dqs fixed h
    unfold addSnake
    apply bind_error
    simp [Build.check, Ne.symm h]
  · have hc : ∀ S : RS, (Build.check (0 = ([] : List ℝ).length) S) = .ok ((), S) := fun S => Runs.check rfl S
    unfold addSnake
    simp only [Option.getD_none, List.replicate_zero]
    change (StateT.bind _ _) S = _
    simp only [StateT.bind, bind, Except.bind, hc]
    rfl

/-! ### C73: poses -/

lemma map_geometric {S S' : RS} (hk : Keeps S S') (att : ℕ → JAttr) (P : Mat4) (F : Forest (FrameRef × ℕ × FrameRef) ℕ)
    (hf : ∀ l ∈ F.links, Old S l.1 ∧ Old S l.2.2) :
    updateGeometric P (F.map (S'.linkWith att) id) = updateGeometric P (F.map (S.linkWith att) id) := by
  induction F generalizing P with
  | nil => rfl
  | cons l b ch sib ih1 ih2 =>
    simp only [Forest.links, List.cons_append, List.mem_cons, List.mem_append] at hf
    have h0 := hf l (.inl rfl)
    have e : geoStep P (S'.linkWith att l) = geoStep P (S.linkWith att l) := by
      simp only [geoStep, relPose, RS.linkWith, hk.bposeOf h0.1, hk.bposeOf h0.2]
    simp only [Forest.map, updateGeometric, e]
    rw [ih1 _ (fun l hl => hf l (.inr (.inl hl))), ih2 _ (fun l hl => hf l (.inr (.inr hl)))]

/-- C73: with a fixed base, whatever the later states of the joints, the `k`-th body of the snake is at the textbook pose of
link `k` of a planar chain; the other bodies are where they were without the snake. -/
theorem C73_snake_fixed_poses {S : RS} {F : Forest (FrameRef × ℕ × FrameRef) ℕ} (hg : Good S F) {ls ms qs dqs : List ℝ} {n lim : ℕ}
    (h1 : ls.length = n) (h2 : ms.length = n) (h3 : qs.length = n) (h4 : dqs.length = n)
    (hl : ∀ x ∈ ls, 0 < x) (hm : ∀ x ∈ ms, 0 < x) (hd : depth F < lim) (hn : n < lim) :
    ∃ S' F', Runs (addSnake lim n (some ls) (some ms) (some qs) (some dqs) true) S () S' ∧ Good S' F' ∧
      ∀ (att : ℕ → JAttr) (q dq : ℕ → ℝ), (∀ k < n, att (S.nj + k) = .lin .Rz (fun _ => q k) (fun _ => dq k)) →
        worldGeometric (F'.map (S'.linkWith att) id) = worldGeometric (F.map (S.linkWith att) id) ++
          (List.range n).map fun k => (S.nb + k, planarPose q (fun i => ls.getD i 0) k) := by
  obtain ⟨S', r, g, k, _, L, _⟩ := C73_snake_fixed hg h1 h2 h3 h4 hl hm hd hn
  refine ⟨S', _, r, g, ?_⟩
  intro att q dq hq
  rw [worldGeometric, map_append, updateGeometric_append, worldGeometric, map_geometric k att 1 F hg.frames,
    serial_poses S' att n q dq (fun i => ls.getD i 0) _ _ _ _ _ hq (by
      intro i hi
      rw [(L i hi).frame]
      simp only [List.getD_eq_getElem?_getD, List.getElem?_eq_getElem (show i < ls.length by omega), Option.getD_some])]
  simp only [RS.bposeOf, Matrix.mul_one, Matrix.one_mul]

/-- C73: with a free base at pose `H`, the base is at `H` and the `k`-th link at `H` times the textbook pose. -/
theorem C73_snake_free_poses {S : RS} {F : Forest (FrameRef × ℕ × FrameRef) ℕ} (hg : Good S F) {ls ms qs dqs : List ℝ} {n lim : ℕ}
    (h1 : ls.length = n) (h2 : ms.length = n) (h3 : qs.length = n) (h4 : dqs.length = n) (h0 : 0 < n)
    (hl : ∀ x ∈ ls, 0 < x) (hm : ∀ x ∈ ms, 0 < x) (hd : depth F < lim) (hn : n + 1 < lim) :
    ∃ S' F', Runs (addSnake lim n (some ls) (some ms) (some qs) (some dqs) false) S () S' ∧ Good S' F' ∧
      ∀ (att : ℕ → JAttr) (H : Mat4) (T : Vec6) (q dq : ℕ → ℝ), att S.nj = .free H T →
        (∀ k < n, att (S.nj + 1 + k) = .lin .Rz (fun _ => q k) (fun _ => dq k)) →
        worldGeometric (F'.map (S'.linkWith att) id) = worldGeometric (F.map (S.linkWith att) id) ++
          (S.nb, H) :: (List.range n).map fun k => (S.nb + 1 + k, H * planarPose q (fun i => ls.getD i 0) k) := by
  obtain ⟨S', r, g, k, _, _, _, _, _, L, _⟩ := C73_snake_free hg h1 h2 h3 h4 h0 hl hm hd hn
  refine ⟨S', _, r, g, ?_⟩
  intro att H T q dq hH hq
  have e0 : geoStep 1 (S'.linkWith att (.body S.w.ground, S.nj, .body S.nb)) = H := by
    simp only [geoStep, relPose, RS.linkWith, RS.bposeOf, invBody_one]
    rw [hH]
    simp [JAttr.val, freeVal]
  rw [worldGeometric, map_append, updateGeometric_append, worldGeometric, map_geometric k att 1 F hg.frames]
  simp only [Forest.chain, Forest.map, updateGeometric, e0, List.append_nil]
  rw [serial_poses S' att n q dq (fun i => ls.getD i 0) _ _ _ _ _ hq (by
      intro i hi
      rw [(L i hi).frame]
      simp only [List.getD_eq_getElem?_getD, List.getElem?_eq_getElem (show i < ls.length by omega), Option.getD_some])]
  simp only [RS.bposeOf, Matrix.mul_one, id]

/-! ### C73: the planar arm -/

lemma armBody_runs {S : RS} {F : Forest (FrameRef × ℕ × FrameRef) ℕ} (hg : Good S F) (name : String) {len m : ℝ} (hl : 0 < len) (hm : 0 < m)
    (sh : Bool) : ∃ S', Runs (armBody name len m sh) S S.nb S' ∧ Good S' F ∧ Keeps S S' ∧ KeepsFresh S S' [] [] ∧
      FreshBody S'.w S.nb ∧ S'.bname S.nb = some name ∧ SymPD (S'.mass S.nb) ∧
      IsRigidMass (S'.mass S.nb) m ![0, len / 2, 0] (Matrix.diagonal ![m / 3 * ((len / 2) ^ 2 + (len / 20) ^ 2) + m * (len / 2) ^ 2,
        m / 3 * ((len / 20) ^ 2 + (len / 20) ^ 2), m / 3 * ((len / 20) ^ 2 + (len / 2) ^ 2) + m * (len / 2) ^ 2]) ∧
      S'.nb = S.nb + 1 ∧ S'.nj = S.nj ∧ S'.ns = S.ns + sh.toNat ∧ S'.nsh = S.nsh + sh.toNat ∧
      (sh = true → S.nsh ∈ S'.w.shapes ∧ S'.o.shapeFrame S.nsh = .sub S.ns ∧ S'.o.subBody S.ns = S.nb ∧
        S'.bpose S.ns = transl 0 (len / 2) 0 ∧ S'.geo S.nsh = .box ![len / 20, len / 2, len / 20]) := by
  obtain ⟨M, eM, hM1, hM2, hM3⟩ := armMass hl hm
  obtain ⟨S1, r1, g1, k1, f1, fb, m1, nm1, b1, j1, s1, sh1, _⟩ := newBody_runs hg (some name) (mass := some M) (.inr hM1)
  cases sh with
  | false =>
    refine ⟨S1, ?_, g1, k1, f1, fb, nm1, by rw [m1]; exact hM2, by rw [m1]; exact hM3, b1, j1, by simpa using s1, by simpa using sh1, by simp⟩
    exact (Runs.liftE eM S).bind (r1.bind (Runs.pure _ _))
  | true =>
    obtain ⟨S2, r2, g2, k2, f2, o2, p2, _, b2, j2, s2, sh2, w2⟩ := newSub_runs g1 S.nb (C01_transl 0 (len / 2) 0).ishom none
    obtain ⟨S3, r3, g3, k3, f3, o3, p3, _, b3, j3, s3, sh3, w3⟩ := newShape_runs g2 (.sub S1.ns) (g := .box ![len / 20, len / 2, len / 20]) trivial none
    obtain ⟨w4, r4, g4, k4, f4, hm4, _⟩ := regShape_runs g3 S2.nsh
    have k34 := k3.trans k4
    have k24 := k2.trans k34
    refine ⟨{ S3 with w := w4 }, ?_, g4, k1.trans k24, ((f1.trans f2).trans f3).trans f4, (((f2.trans f3).trans f4).body _ fb (by simp)), ?_, ?_, ?_, ?_, ?_, ?_, ?_, ?_⟩
    · exact (Runs.liftE eM S).bind (r1.bind (r2.bind (r3.bind (r4.bind (Runs.pure _ _)))))
    · rw [(k24.body S.nb (by omega)).2, nm1]
    · rw [(k24.body S.nb (by omega)).1, m1]; exact hM2
    · rw [(k24.body S.nb (by omega)).1, m1]; exact hM3
    · simp only; omega
    · simp only; omega
    · simp only [Bool.toNat_true]; omega
    · simp only [Bool.toNat_true]; omega
    · intro _
      rw [sh2, sh1] at hm4 o3 p3
      refine ⟨hm4, by rw [← s1]; exact o3, ?_, ?_, p3⟩
      · rw [(k34.sub S.ns (by omega)).2.2, ← s1, o2]
      · rw [(k34.sub S.ns (by omega)).1, ← s1, p2]

/-- what the user is told of a segment of the arm: body `b` named `name`, frame `f` at its end -/
structure Spec.ArmBody (S' : RS) (b : ℕ) (name : String) (len m : ℝ) : Prop where
  name : S'.bname b = some name
  pd : SymPD (S'.mass b)
  mass : IsRigidMass (S'.mass b) m ![0, len / 2, 0] (Matrix.diagonal ![m / 3 * ((len / 2) ^ 2 + (len / 20) ^ 2) + m * (len / 2) ^ 2,
        m / 3 * ((len / 20) ^ 2 + (len / 20) ^ 2), m / 3 * ((len / 20) ^ 2 + (len / 2) ^ 2) + m * (len / 2) ^ 2])

/-- the box drawn for a segment: in the middle of the body -/
structure Spec.ArmShape (S' : RS) (s f b : ℕ) (len : ℝ) : Prop where
  registered : s ∈ S'.w.shapes
  frame : S'.o.shapeFrame s = .sub f
  onBody : S'.o.subBody f = b
  pose : S'.bpose f = transl 0 (len / 2) 0
  geo : S'.geo s = .box ![len / 20, len / 2, len / 20]

/-- a revolute joint about z at zero, named, with the frame at the end of its body -/
structure Spec.ArmJoint (S' : RS) (j : ℕ) (jname : String) (f b : ℕ) (fname : String) (len : ℝ) (dof : ℕ) : Prop where
  joint : S'.jattr j = .lin .Rz (fun _ => 0) (fun _ => 0)
  jname : S'.jname j = some jname
  onBody : S'.o.subBody f = b
  pose : S'.bpose f = transl 0 len 0
  fname : S'.fname f = some fname
  dof : (S'.w.joint j).dof = some (dof, dof + 1)

lemma jointLink_runs {S : RS} {F : Forest (FrameRef × ℕ × FrameRef) ℕ} {xs} {fr : FrameRef} {b : ℕ} (hg : Good S (F.append (.chain xs)))
    (ho : Old S fr) (he : EndOf S xs fr) (hfb : FreshBody S.w b) (hb : b < S.nb) (a : JAttr) (name : Option String) :
    ∃ S1 S2, Runs (newJoint a name) S S.nj S1 ∧ Runs (link fr S.nj (.body b)) S1 () S2 ∧
      S1.w.ground = S.w.ground ∧
      Good S2 (F.append (.chain (xs ++ [((fr, S.nj, .body b), b)]))) ∧ Keeps S S2 ∧ KeepsFresh S S2 [b] [S.nj] ∧
      S2.jattr S.nj = a ∧ S2.jname S.nj = name ∧ S2.o.ndof S.nj = a.ndof ∧
      S2.nb = S.nb ∧ S2.nj = S.nj + 1 ∧ S2.ns = S.ns ∧ S2.nsh = S.nsh := by
  obtain ⟨S1, r2, g2, k2, f2, fj, a2, n2, d2, b2, j2, s2, sh2, _⟩ := newJoint_runs hg a name
  have hob : S1.o.bodyOf fr = S.o.bodyOf fr := k2.bodyOf ho
  have he2 : EndOf S1 xs fr := by
    rcases he with ⟨e1, e2⟩ | ⟨ys, l, e⟩
    · exact .inl ⟨e1, by rw [hob, k2.ground]; exact e2⟩
    · exact .inr ⟨ys, l, by rw [hob]; exact e⟩
  obtain ⟨c1, c2⟩ := graft_chain g2 he2 S.nj b
  obtain ⟨w3, r3, g3, k3, f3, kn3⟩ := link_runs g2 (k2.old ho) c2 fj (by omega) (by rw [d2, a2]) (f2.body _ hfb (by simp)) (by omega)
  rw [c1] at g3
  have f23 := f2.trans f3
  simp only [List.nil_append] at f23
  exact ⟨S1, _, r2, r3, k2.ground, g3, k2.trans k3, f23, a2, n2, d2, b2, j2, s2, sh2⟩

/-- C73: on any world that is a tree, `add_simplearm` with positive lengths and masses adds a chain of three bodies `Arm`,
`Forearm`, `Hand` below the ground, by revolute joints about `z` at zero, with an end-effector frame at the tip; the world gets
3 more dofs; with shapes, each body has a box in its middle. -/
theorem C73_simplearm {S : RS} {F : Forest (FrameRef × ℕ × FrameRef) ℕ} (hg : Good S F) (name : String) {l0 l1 l2 m0 m1 m2 : ℝ} {lim : ℕ}
    (hl0 : 0 < l0) (hl1 : 0 < l1) (hl2 : 0 < l2) (hm0 : 0 < m0) (hm1 : 0 < m1) (hm2 : 0 < m2) (sh : Bool)
    (hd : depth F < lim) (h3 : 3 < lim) :
    ∃ S', Runs (addSimplearm lim name (l0, l1, l2) (m0, m1, m2) sh) S () S' ∧
      (let ns := S.ns + 3 * sh.toNat
       let N := ndofSum S.o (joints F)
       Good S' (F.append (.chain (serial (.body S.w.ground) S.nb S.nj ns 3))) ∧ Keeps S S' ∧ S'.w.ndof = N + 3 ∧
       ArmBody S' S.nb (name ++ "Arm") l0 m0 ∧ ArmBody S' (S.nb + 1) (name ++ "Forearm") l1 m1 ∧ ArmBody S' (S.nb + 2) (name ++ "Hand") l2 m2 ∧
       ArmJoint S' S.nj (name ++ "Shoulder") ns S.nb (name ++ "ElbowBaseFrame") l0 N ∧
       ArmJoint S' (S.nj + 1) (name ++ "Elbow") (ns + 1) (S.nb + 1) (name ++ "WristBaseFrame") l1 (N + 1) ∧
       ArmJoint S' (S.nj + 2) (name ++ "Wrist") (ns + 2) (S.nb + 2) (name ++ "EndEffector") l2 (N + 2) ∧
       Known S'.w (.sub (ns + 2)) ∧
       (sh = true → ArmShape S' S.nsh S.ns S.nb l0 ∧ ArmShape S' (S.nsh + 1) (S.ns + 1) (S.nb + 1) l1 ∧
         ArmShape S' (S.nsh + 2) (S.ns + 2) (S.nb + 2) l2)) := by
  obtain ⟨S1, r1, g1, k1, f1, fb1, nm1, pd1, ms1, b1, j1, s1, h1, sf1⟩ := armBody_runs hg (name ++ "Arm") hl0 hm0 sh
  obtain ⟨S2, r2, g2, k2, f2, fb2, nm2, pd2, ms2, b2, j2, s2, h2, sf2⟩ := armBody_runs g1 (name ++ "Forearm") hl1 hm1 sh
  obtain ⟨S3, r3, g3, k3, f3, fb3, nm3, pd3, ms3, b3, j3, s3, h3', sf3⟩ := armBody_runs g2 (name ++ "Hand") hl2 hm2 sh
  rw [b1] at fb2 nm2 pd2 ms2 r2
  rw [b2, b1] at fb3 nm3 pd3 ms3 r3
  have k23 := k2.trans k3
  have k13 := k1.trans k23
  have hns : S3.ns = S.ns + 3 * sh.toNat := by omega
  have hgr : S3.w.ground = S.w.ground := k13.ground
  have g3' : Good S3 (F.append (.chain [])) := by simpa [Forest.chain, Forest.append_nil] using g3
  obtain ⟨S4, S5, r4, r5, gr4, g5, k5, f5, a5, jn5, d5, b5, j5, s5, h5⟩ := jointLink_runs (fr := .body S3.w.ground) (b := S.nb) g3' g3.ground (.inl ⟨rfl, rfl⟩)
    ((f2.trans f3).body _ fb1 (by simp)) (by omega) (.zero .Rz) (some (name ++ "Shoulder"))
  have hj3 : S3.nj = S.nj := by omega
  rw [hj3] at r4 r5 g5 f5 a5 jn5 d5
  rw [hgr] at r5 g5
  rw [hns] at s5
  -- elbow frame
  obtain ⟨S6, r6, g6, k6, f6, o6, p6, n6, b6, j6, s6, h6, w6⟩ := newSub_runs g5 S.nb (C01_transl 0 l0 0).ishom (some (name ++ "ElbowBaseFrame"))
  obtain ⟨S7, S8, r7, r8, gr7, g8, k8, f8, a8, jn8, d8, b8, j8, s8, h8⟩ := jointLink_runs (fr := .sub S5.ns) (b := S.nb + 1) g6 (by change S5.ns < S6.ns; omega)
    (.inr ⟨[], (.body S.w.ground, S.nj, .body S.nb), by simp [Objs.bodyOf, o6]⟩)
    (f6.body _ (f5.body _ (f3.body _ fb2 (by simp)) (by simp)) (by simp)) (by omega) (.zero .Rz) (some (name ++ "Elbow"))
  have hj6 : S6.nj = S.nj + 1 := by omega
  rw [hj6] at r7 r8 g8 f8 a8 jn8 d8
  rw [s5] at r6 o6 p6 n6 r8 g8
  -- wrist frame
  obtain ⟨S9, r9, g9, k9, f9, o9, p9, n9, b9, j9, s9, h9, w9⟩ := newSub_runs g8 (S.nb + 1) (C01_transl 0 l1 0).ishom (some (name ++ "WristBaseFrame"))
  obtain ⟨S10, S11, r10, r11, gr10, g11, k11, f11, a11, jn11, d11, b11, j11, s11, h11⟩ := jointLink_runs (fr := .sub S8.ns) (b := S.nb + 2) g9 (by change S8.ns < S9.ns; omega)
    (.inr ⟨[((.body S.w.ground, S.nj, .body S.nb), S.nb)], (.sub (S.ns + 3 * sh.toNat), S.nj + 1, .body (S.nb + 1)), by simp [Objs.bodyOf, o9]⟩)
    (f9.body _ (f8.body _ (f6.body _ (f5.body _ fb3 (by simp)) (by simp)) (by simp)) (by simp)) (by omega) (.zero .Rz) (some (name ++ "Wrist"))
  have hj9 : S9.nj = S.nj + 2 := by omega
  have hs8 : S8.ns = S.ns + 3 * sh.toNat + 1 := by omega
  rw [hj9] at r10 r11 g11 f11 a11 jn11 d11
  rw [hs8] at r9 o9 p9 n9 r11 g11
  -- end effector
  obtain ⟨S12, r12, g12, k12, f12, o12, p12, n12, b12, j12, s12, h12, w12⟩ := newSub_runs g11 (S.nb + 2) (C01_transl 0 l2 0).ishom (some (name ++ "EndEffector"))
  have hs11 : S11.ns = S.ns + 3 * sh.toNat + 2 := by omega
  rw [hs11] at r12 o12 p12 n12
  obtain ⟨w13, r13, g13, k13', f13, kn13⟩ := regFrame_runs g12 (.sub (S.ns + 3 * sh.toNat + 2))
  simp only [List.nil_append, List.cons_append] at g13
  obtain ⟨w14, r14, g14, k14, -, N, D⟩ := init_runs g13 (lim := lim) (by
    rw [depth_append, depth_chain]; simp only [List.length_cons, List.length_nil]; omega)
  have t13 := k13'.trans k14
  have t12 := k12.trans t13
  have t11 := k11.trans t12
  have t9 := k9.trans t11
  have t8 := k8.trans t9
  have t6 := k6.trans t8
  have t5 := k5.trans t6
  have t3 := k3.trans t5
  have t2 := k2.trans t3
  have t1 := k1.trans t2
  have hN : ndofSum S12.o (joints F) = ndofSum S.o (joints F) := ndofSum_keeps t1 hg.joints
  have q1 : S12.o.ndof S.nj = 1 := by
    have := (t6.joint S.nj (by omega)).2.2
    simp only at this
    rw [this, d5]; rfl
  have q2 : S12.o.ndof (S.nj + 1) = 1 := by
    have := (t9.joint (S.nj + 1) (by omega)).2.2
    simp only at this
    rw [this, d8]; rfl
  have q3 : S12.o.ndof (S.nj + 2) = 1 := by
    have := (t12.joint (S.nj + 2) (by omega)).2.2
    simp only at this
    rw [this, d11]; rfl
  have hJ : ∀ x y z, joints (F.append (.chain [((.body S.w.ground, S.nj, .body S.nb), S.nb), x, (y, z)])) =
      joints F ++ [S.nj, x.1.2.1, y.2.1] := by
    intro x y z; rw [joints_append, joints_chain]; rfl
  refine ⟨{ S12 with w := w14 }, ?_, g14, t1, ?_, ⟨?_, ?_, ?_⟩, ⟨?_, ?_, ?_⟩, ⟨?_, ?_, ?_⟩, ⟨?_, ?_, ?_, ?_, ?_, ?_⟩, ⟨?_, ?_, ?_, ?_, ?_, ?_⟩,
    ⟨?_, ?_, ?_, ?_, ?_, ?_⟩, ?_, ?_⟩
  · unfold addSimplearm
    refine r1.bind (r2.bind (r3.bind (r4.bind ((Runs.ground S4).bind ?_))))
    rw [gr4, hgr]
    exact r5.bind (r6.bind (r7.bind (r8.bind (r9.bind (r10.bind (r11.bind (r12.bind (r13.bind r14))))))))
  · rw [show ({ S12 with w := w14 } : RS).w.ndof = w14.ndof from rfl, N, hJ, ndofSum_append, hN]
    simp [ndofSum, q1, q2, q3]
  · rw [(t2.body S.nb (by omega)).2, nm1]
  · rw [(t2.body S.nb (by omega)).1]; exact pd1
  · rw [(t2.body S.nb (by omega)).1]; exact ms1
  · rw [(t3.body (S.nb + 1) (by omega)).2, nm2]
  · rw [(t3.body (S.nb + 1) (by omega)).1]; exact pd2
  · rw [(t3.body (S.nb + 1) (by omega)).1]; exact ms2
  · rw [(t5.body (S.nb + 2) (by omega)).2, nm3]
  · rw [(t5.body (S.nb + 2) (by omega)).1]; exact pd3
  · rw [(t5.body (S.nb + 2) (by omega)).1]; exact ms3
  · rw [(t6.joint S.nj (by omega)).1, a5]; rfl
  · rw [(t6.joint S.nj (by omega)).2.1, jn5]
  · rw [(t8.sub _ (by omega)).2.2, o6]
  · rw [(t8.sub _ (by omega)).1, p6]
  · rw [(t8.sub _ (by omega)).2.1, n6]
  · rw [show ({ S12 with w := w14 } : RS).w.joint = w14.joint from rfl, D (joints F) S.nj [S.nj + 1, S.nj + 2] (by rw [hJ]), hN, q1]
  · rw [(t9.joint (S.nj + 1) (by omega)).1, a8]; rfl
  · rw [(t9.joint (S.nj + 1) (by omega)).2.1, jn8]
  · rw [(t11.sub _ (by omega)).2.2, o9]
  · rw [(t11.sub _ (by omega)).1, p9]
  · rw [(t11.sub _ (by omega)).2.1, n9]
  · rw [show ({ S12 with w := w14 } : RS).w.joint = w14.joint from rfl, D (joints F ++ [S.nj]) (S.nj + 1) [S.nj + 2] (by rw [hJ]; simp), ndofSum_append, hN, q2]
    simp [ndofSum, q1]
  · rw [(t12.joint (S.nj + 2) (by omega)).1, a11]; rfl
  · rw [(t12.joint (S.nj + 2) (by omega)).2.1, jn11]
  · rw [(t13.sub _ (by omega)).2.2, o12]
  · rw [(t13.sub _ (by omega)).1, p12]
  · rw [(t13.sub _ (by omega)).2.1, n12]
  · rw [show ({ S12 with w := w14 } : RS).w.joint = w14.joint from rfl, D (joints F ++ [S.nj, S.nj + 1]) (S.nj + 2) [] (by rw [hJ]; simp), ndofSum_append, hN, q3]
    simp [ndofSum, q1, q2]
  · exact k14.subframes _ kn13
  · intro hsh
    obtain ⟨u1, u2, u3, u4, u5⟩ := sf1 hsh
    obtain ⟨v1, v2, v3, v4, v5⟩ := sf2 hsh
    obtain ⟨x1, x2, x3, x4, x5⟩ := sf3 hsh
    simp only [hsh, Bool.toNat_true] at s1 s2 s3 h1 h2 h3'
    rw [h1] at v1 v2 v5
    rw [s1] at v2 v3 v4
    rw [h2, h1] at x1 x2 x5
    rw [s2, s1] at x2 x3 x4
    rw [b1] at v3
    rw [b2, b1] at x3
    refine ⟨⟨t2.shapes _ u1, ?_, ?_, ?_, ?_⟩, ⟨t3.shapes _ v1, ?_, ?_, ?_, ?_⟩, ⟨t5.shapes _ x1, ?_, ?_, ?_, ?_⟩⟩
    · rw [(t2.shape _ (by omega)).2.2, u2]
    · rw [(t2.sub _ (by omega)).2.2, u3]
    · rw [(t2.sub _ (by omega)).1, u4]
    · rw [(t2.shape _ (by omega)).1, u5]
    · rw [(t3.shape _ (by omega)).2.2, v2]
    · rw [(t3.sub _ (by omega)).2.2, v3]
    · rw [(t3.sub _ (by omega)).1, v4]
    · rw [(t3.shape _ (by omega)).1, v5]
    · rw [(t5.shape _ (by omega)).2.2, x2]
    · rw [(t5.sub _ (by omega)).2.2, x3]
    · rw [(t5.sub _ (by omega)).1, x4]
    · rw [(t5.shape _ (by omega)).1, x5]

/-- C73: the textbook forward kinematics of the planar arm, whatever the later joint angles `q`: the segments are at the
poses of a planar chain and the end effector is at
`(-l0 sin q0 - l1 sin (q0+q1) - l2 sin (q0+q1+q2), l0 cos q0 + l1 cos (q0+q1) + l2 cos (q0+q1+q2), 0)` with heading
`q0 + q1 + q2`. -/
theorem C73_simplearm_poses {S : RS} {F : Forest (FrameRef × ℕ × FrameRef) ℕ} (hg : Good S F) (name : String) {l0 l1 l2 m0 m1 m2 : ℝ} {lim : ℕ}
    (hl0 : 0 < l0) (hl1 : 0 < l1) (hl2 : 0 < l2) (hm0 : 0 < m0) (hm1 : 0 < m1) (hm2 : 0 < m2) (sh : Bool)
    (hd : depth F < lim) (h3 : 3 < lim) :
    ∃ S' F' ee, Runs (addSimplearm lim name (l0, l1, l2) (m0, m1, m2) sh) S () S' ∧ Good S' F' ∧
      S'.fname ee = some (name ++ "EndEffector") ∧ S'.o.subBody ee = S.nb + 2 ∧
      ∀ (att : ℕ → JAttr) (q dq : ℕ → ℝ), (∀ k < 3, att (S.nj + k) = .lin .Rz (fun _ => q k) (fun _ => dq k)) →
        ∃ hand : Mat4, worldGeometric (F'.map (S'.linkWith att) id) = worldGeometric (F.map (S.linkWith att) id) ++
          [(S.nb, mkH (Rz (q 0)) 0), (S.nb + 1, mkH (Rz (q 0 + q 1)) (l0 • ![-sin (q 0), cos (q 0), 0])), (S.nb + 2, hand)] ∧
          hand * S'.bpose ee = mkH (Rz (q 0 + q 1 + q 2))
            ![-l0 * sin (q 0) - l1 * sin (q 0 + q 1) - l2 * sin (q 0 + q 1 + q 2),
              l0 * cos (q 0) + l1 * cos (q 0 + q 1) + l2 * cos (q 0 + q 1 + q 2), 0] := by
  obtain ⟨S', r, g, k, _, _, _, _, J0, J1, J2, _⟩ := C73_simplearm hg name hl0 hl1 hl2 hm0 hm1 hm2 sh hd h3
  refine ⟨S', _, _, r, g, J2.fname, J2.onBody, ?_⟩
  intro att q dq hq
  refine ⟨planarPose q (fun i => [l0, l1, l2].getD i 0) 2, ?_, ?_⟩
  · rw [worldGeometric, map_append, updateGeometric_append, worldGeometric, map_geometric k att 1 F hg.frames,
      serial_poses S' att 3 q dq (fun i => [l0, l1, l2].getD i 0) _ _ _ _ _ hq (by
        intro i hi
        interval_cases i
        · exact J0.pose
        · exact J1.pose
        · exact J2.pose)]
    simp only [RS.bposeOf, Matrix.mul_one, Matrix.one_mul]
    simp [List.range_succ, planarPose, Finset.sum_range_succ, Rz]
  · rw [J2.pose, transl_eq]
    simp only [planarPose]
    rw [mkH_mul, Matrix.mul_one, mkH_inj]
    refine ⟨by simp [Finset.sum_range_succ, Rz], ?_⟩
    ext i; fin_cases i <;> simp [Finset.sum_range_succ, Matrix.mulVec, dotProduct, Fin.sum_univ_three] <;> ring

/-! ### C73: simple shapes -/

/-- C73: `add_sphere`, `add_box` and `add_cylinder` on any tree: one new body with the mass matrix of the shape, hung to the
ground by a free joint at the identity, 6 more dofs, and the shape registered on the body. -/
theorem C73_shapes {S : RS} {F : Forest (FrameRef × ℕ × FrameRef) ℕ} (hg : Good S F) (name : Option String) {M : Mat6} {geo : ShapeGeo} {lim : ℕ}
    (hM : ismassmatrix M true) (ho : geo.ok) (hd : depth F < lim) (h1 : 1 < lim) :
    ∃ S', Runs (addFree lim name M geo) S () S' ∧
      Good S' (F.append (.chain [((.body S.w.ground, S.nj, .body S.nb), S.nb)])) ∧ Keeps S S' ∧
      S'.w.ndof = ndofSum S.o (joints F) + 6 ∧ S'.mass S.nb = M ∧ S'.bname S.nb = name ∧ S'.jattr S.nj = .free 1 0 ∧
      (S'.w.joint S.nj).dof = some (ndofSum S.o (joints F), ndofSum S.o (joints F) + 6) ∧
      S.nsh ∈ S'.w.shapes ∧ S'.o.shapeFrame S.nsh = .body S.nb ∧ S'.geo S.nsh = geo.stored := by
  obtain ⟨S1, r1, g1, k1, f1, fb1, m1, nm1, b1, j1, s1, h1', _⟩ := newBody_runs hg name (mass := some M) (.inr hM)
  have g1' : Good S1 (F.append (.chain [])) := by simpa [Forest.chain, Forest.append_nil] using g1
  obtain ⟨S2, S3, r2, r3, gr2, g3, k3, f3, a3, jn3, d3, b3, j3, s3, h3⟩ := jointLink_runs (fr := .body S1.w.ground) (b := S.nb) g1' g1.ground (.inl ⟨rfl, rfl⟩)
    fb1 (by omega) (.free 1 0) none
  rw [j1] at r2 r3 g3 a3 d3
  rw [k1.ground] at r3 g3
  obtain ⟨S4, r4, g4, k4, f4, o4, p4, n4, b4, j4, s4, h4, w4⟩ := newShape_runs g3 (.body S.nb) ho none
  rw [h3, h1'] at r4 o4 p4
  obtain ⟨w5, r5, g5, k5, f5, hm5, -⟩ := regShape_runs g4 S.nsh
  simp only [List.nil_append] at g5
  obtain ⟨w6, r6, g6, k6, -, N, D⟩ := init_runs g5 (lim := lim) (by
    rw [depth_append, depth_chain]; simp only [List.length_cons, List.length_nil]; omega)
  have t5 := k5.trans k6
  have t4 := k4.trans t5
  have t3 := k3.trans t4
  have t1 := k1.trans t3
  have hN : ndofSum S4.o (joints F) = ndofSum S.o (joints F) := ndofSum_keeps t1 hg.joints
  have q1 : S4.o.ndof S.nj = 6 := by
    have := (t4.joint S.nj (by omega)).2.2
    simp only at this
    rw [this, d3]; rfl
  have hJ : joints (F.append (.chain [((.body S.w.ground, S.nj, .body S.nb), S.nb)])) = joints F ++ [S.nj] := by
    rw [joints_append, joints_chain]; rfl
  refine ⟨{ S4 with w := w6 }, ?_, g6, t1, ?_, ?_, ?_, ?_, ?_, k6.shapes _ hm5, ?_, ?_⟩
  · unfold addFree
    refine r1.bind ((Runs.ground S1).bind (r2.bind ?_))
    rw [k1.ground]
    exact r3.bind (r4.bind (r5.bind r6))
  · rw [show ({ S4 with w := w6 } : RS).w.ndof = w6.ndof from rfl, N, hJ, ndofSum_append, hN]
    simp [ndofSum, q1]
  · rw [(t3.body S.nb (by omega)).1, m1]; rfl
  · rw [(t3.body S.nb (by omega)).2, nm1]
  · rw [(t4.joint S.nj (by omega)).1, a3]
  · rw [show ({ S4 with w := w6 } : RS).w.joint = w6.joint from rfl, D (joints F) S.nj [] (by rw [hJ]), hN, q1]
  · rw [(t5.shape _ (by omega)).2.2, o4]
  · rw [(t5.shape _ (by omega)).1, p4]

/-- C73: `add_sphere` accepts every positive radius and mass. -/
theorem C73_sphere {S : RS} {F : Forest (FrameRef × ℕ × FrameRef) ℕ} (hg : Good S F) (name : Option String) {r m : ℝ} {lim : ℕ}
    (hr : 0 < r) (hm : 0 < m) (hd : depth F < lim) (h1 : 1 < lim) :
    ∃ S', Runs (addSphere lim r m name) S () S' ∧
      Good S' (F.append (.chain [((.body S.w.ground, S.nj, .body S.nb), S.nb)])) ∧ Keeps S S' ∧
      S'.w.ndof = ndofSum S.o (joints F) + 6 ∧
      IsRigidMass (S'.mass S.nb) m 0 (Matrix.diagonal fun _ => m * (2 * r ^ 2 / 5)) ∧ S'.bname S.nb = name ∧ S'.jattr S.nj = .free 1 0 ∧
      S.nsh ∈ S'.w.shapes ∧ S'.o.shapeFrame S.nsh = .body S.nb ∧ S'.geo S.nsh = .sphere r := by
  obtain ⟨_, hpd, him⟩ := C13_shapes (x := 1) (y := 1) (z := 1) (r := r) (L := 1) one_pos one_pos one_pos hr one_pos hm (massSphere r m) (by simp)
  obtain ⟨S', a1, a2, a3, a4, a5, a6, a7, _, a8, a9, a10⟩ := C73_shapes hg name (geo := .sphere r) (ismass_semi him) hr.le hd h1
  refine ⟨S', a1, a2, a3, a4, ?_, a6, a7, a8, a9, a10⟩
  rw [a5]
  refine ⟨Matrix.diagonal_transpose _, ?_⟩
  rw [massSphere, (diag6_rigid _ _ _ _).eq]
  congr 1
  · congr 1
    congr 1
    ext i; fin_cases i <;> simp <;> ring

/-- C73: `add_box` accepts every positive half extents and mass. -/
theorem C73_box {S : RS} {F : Forest (FrameRef × ℕ × FrameRef) ℕ} (hg : Good S F) (name : Option String) {h : Vec3} {m : ℝ} {lim : ℕ}
    (hh : ∀ i, 0 < h i) (hm : 0 < m) (hd : depth F < lim) (h1 : 1 < lim) :
    ∃ S', Runs (addBox lim h m name) S () S' ∧
      Good S' (F.append (.chain [((.body S.w.ground, S.nj, .body S.nb), S.nb)])) ∧ Keeps S S' ∧
      S'.w.ndof = ndofSum S.o (joints F) + 6 ∧
      IsRigidMass (S'.mass S.nb) m 0 (Matrix.diagonal ![m / 3 * (h 1 ^ 2 + h 2 ^ 2), m / 3 * (h 0 ^ 2 + h 2 ^ 2), m / 3 * (h 0 ^ 2 + h 1 ^ 2)]) ∧
      S'.bname S.nb = name ∧ S'.jattr S.nj = .free 1 0 ∧
      S.nsh ∈ S'.w.shapes ∧ S'.o.shapeFrame S.nsh = .body S.nb ∧ S'.geo S.nsh = .box h := by
  obtain ⟨_, hpd, him⟩ := C13_shapes (x := h 0) (y := h 1) (z := h 2) (r := 1) (L := 1) (hh 0) (hh 1) (hh 2) one_pos one_pos hm
    (massBox (h 0) (h 1) (h 2) m) (by simp)
  obtain ⟨S', a1, a2, a3, a4, a5, a6, a7, _, a8, a9, a10⟩ := C73_shapes hg name (geo := .box h) (ismass_semi him) trivial hd h1
  refine ⟨S', a1, a2, a3, a4, ?_, a6, a7, a8, a9, a10⟩
  rw [a5]
  refine ⟨Matrix.diagonal_transpose _, ?_⟩
  rw [massBox, (diag6_rigid _ _ _ _).eq]

/-- C73: `add_cylinder` (axis along `z`) accepts every positive length, radius and mass. -/
theorem C73_cylinder {S : RS} {F : Forest (FrameRef × ℕ × FrameRef) ℕ} (hg : Good S F) (name : Option String) {L r m : ℝ} {lim : ℕ}
    (hL : 0 < L) (hr : 0 < r) (hm : 0 < m) (hd : depth F < lim) (h1 : 1 < lim) :
    ∃ S', Runs (addCylinder lim L r m name) S () S' ∧
      Good S' (F.append (.chain [((.body S.w.ground, S.nj, .body S.nb), S.nb)])) ∧ Keeps S S' ∧
      S'.w.ndof = ndofSum S.o (joints F) + 6 ∧
      IsRigidMass (S'.mass S.nb) m 0 (Matrix.diagonal ![m * (r ^ 2 / 4 + L ^ 2 / 12), m * (r ^ 2 / 4 + L ^ 2 / 12), m * (r ^ 2 / 2)]) ∧
      S'.bname S.nb = name ∧ S'.jattr S.nj = .free 1 0 ∧
      S.nsh ∈ S'.w.shapes ∧ S'.o.shapeFrame S.nsh = .body S.nb ∧ S'.geo S.nsh = .cylinder L r := by
  obtain ⟨_, hpd, him⟩ := C13_shapes (x := 1) (y := 1) (z := 1) (r := r) (L := L) one_pos one_pos one_pos hr hL hm (massCylinder L r m) (by simp)
  obtain ⟨S', a1, a2, a3, a4, a5, a6, a7, _, a8, a9, a10⟩ := C73_shapes hg name (geo := .cylinder L r) (ismass_semi him) hr.le hd h1
  refine ⟨S', a1, a2, a3, a4, ?_, a6, a7, a8, a9, a10⟩
  rw [a5]
  refine ⟨Matrix.diagonal_transpose _, ?_⟩
  rw [massCylinder, (diag6_rigid _ _ _ _).eq]
  congr 1
  · congr 1
    congr 1
    ext i; fin_cases i <;> simp <;> ring

/-- C73: `add_groundplane` puts on the ground the plane through the origin orthogonal to `world.up`. -/
theorem C73_groundplane {S : RS} {F : Forest (FrameRef × ℕ × FrameRef) ℕ} (hg : Good S F) {up : Vec3} (hup : norm3 up = 1) :
    ∃ S', Runs (addGroundplane up) S () S' ∧ Good S' F ∧ Keeps S S' ∧ S.nsh ∈ S'.w.shapes ∧ S'.shname S.nsh = some "Ground shape" ∧
      S'.o.shapeFrame S.nsh = .body S.w.ground ∧ S'.geo S.nsh = .plane ![up 0, up 1, up 2, 0] := by
  obtain ⟨S4, r4, g4, k4, f4, o4, p4, n4, b4, j4, s4, h4, w4⟩ := newShape_runs hg (.body S.w.ground) (g := .plane ![up 0, up 1, up 2, 0]) trivial (some "Ground shape")
  obtain ⟨w5, r5, g5, k5, f5, hm5, -⟩ := regShape_runs g4 S.nsh
  refine ⟨{ S4 with w := w5 }, (Runs.ground S).bind (r4.bind r5), g5, k4.trans k5, hm5, n4, o4, ?_⟩
  simp only
  rw [p4]
  simp only [ShapeGeo.stored]
  congr 1
  have : norm3 ![(![up 0, up 1, up 2, 0] : Fin 4 → ℝ) 0, (![up 0, up 1, up 2, 0] : Fin 4 → ℝ) 1, (![up 0, up 1, up 2, 0] : Fin 4 → ℝ) 2] = 1 := by
    rw [← hup]; congr 1; ext i; fin_cases i <;> rfl
  ext i
  rw [this]; simp

/-! ### the hypotheses are met -/

/-- a new world is the empty tree -/
lemma good_new : Good RS.new .nil where
  tree := ⟨.nil _, rfl, by simp [Forest.bodies], by simp [joints, Forest.links]⟩
  ground := by decide
  bodies := by simp [Forest.bodies]
  frames := by simp [Forest.links]
  joints := by simp [joints, Forest.links]
  ndof := by simp [joints, Forest.links]

/-- C73: whatever is built in a new world, its ground is called "ground", and has no mass. -/
theorem C73_ground {S' : RS} (h : Keeps RS.new S') : S'.bname S'.w.ground = some "ground" ∧ S'.mass S'.w.ground = 0 := by
  rw [h.ground]
  exact ⟨(h.body 0 (by decide)).2, (h.body 0 (by decide)).1⟩

/-- a snake of two links with a free base on a new world, then a planar arm with shapes on the result: 8 dofs, then 11 -/
example : ∃ S' S'', Runs (addSnake 1000 2 (some [1, 2]) (some [3, 4]) (some [5, 6]) (some [7, 8]) false) RS.new () S' ∧ S'.w.ndof = 8 ∧
    Runs (addSimplearm 1000 "r" (1, 2, 3) (1, 1, 1) true) S' () S'' ∧ S''.w.ndof = 11 := by
  obtain ⟨S', r, g, k, N, _⟩ := C73_snake_free (ls := [1, 2]) (ms := [3, 4]) (qs := [5, 6]) (dqs := [7, 8]) (n := 2) (lim := 1000) good_new rfl rfl rfl rfl
    (by norm_num) (by simp) (by simp) (by simp [depth]) (by norm_num)
  obtain ⟨S'', r', g', k', N', _⟩ := C73_simplearm g "r" (l0 := 1) (l1 := 2) (l2 := 3) (m0 := 1) (m1 := 1) (m2 := 1) (lim := 1000) (by norm_num) (by norm_num)
    (by norm_num) (by norm_num) (by norm_num) (by norm_num) true (by rw [depth_append, depth_chain]; simp [depth, serial_length]) (by norm_num)
  have hN : S'.w.ndof = 8 := by rw [N]; simp [ndofSum, joints, Forest.links]
  refine ⟨S', S'', r, hN, r', ?_⟩
  rw [N', joints_append, joints_chain, List.map_cons, serial_joints, ndofSum_append]
  have j : ∀ i ∈ [0, 1, 2], S'.o.ndof i = (S'.jattr i).ndof := by
    intro i hi
    apply g.ndof
    rw [joints_append, joints_chain, List.map_cons, serial_joints]
    simpa [RS.new, List.range_succ, joints, Forest.links] using hi
  obtain ⟨a1, _, _, _, a5, _⟩ := (‹S'.jattr RS.new.nj = .free 1 0 ∧ _› : _)
  have b0 := (a5 0 (by norm_num)).joint
  have b1 := (a5 1 (by norm_num)).joint
  simp only [RS.new] at a1 b0 b1
  simp [ndofSum, joints, Forest.links, List.range_succ, RS.new, j, a1, b0, b1, JAttr.ndof, LinKind.ndof]

/-- C73: whatever the world and the states `att` of its joints, `update_geometric` gives every body the product, along its path
from the ground, of `frame0.bpose · joint.pose · frame1.bpose⁻¹`; nothing raises. -/
theorem C73_frames (S : RS) (att : ℕ → JAttr) (F : Forest (FrameRef × ℕ × FrameRef) ℕ)
    (hv : ∀ l ∈ F.links, IsRigid (S.bposeOf l.1) ∧ IsRigid (S.bposeOf l.2.2) ∧
      ∀ H T, att l.2.1 = .free H T → IsRigid H) :
    updateGeometricE 1 (F.map (S.linkWith att) id) = .ok (F.paths.map fun x =>
      (x.1, (x.2.map fun l => S.bposeOf l.1 * (att l.2.1).val.pose * (S.bposeOf l.2.2)⁻¹).prod)) := by
  have hval : ∀ l ∈ (F.map (S.linkWith att) id).links, ValidLink l := by
    intro l hl
    have : ∀ G : Forest (FrameRef × ℕ × FrameRef) ℕ, (G.map (S.linkWith att) id).links = G.links.map (S.linkWith att) := by
      intro G
      induction G with
      | nil => rfl
      | cons l b ch sib ih1 ih2 => simp [Forest.map, Forest.links, ih1, ih2]
    rw [this] at hl
    obtain ⟨l0, hl0, rfl⟩ := List.mem_map.mp hl
    obtain ⟨h0, h1, h2⟩ := hv l0 hl0
    refine ⟨h0, h1, ?_, ?_⟩
    all_goals
      simp only [RS.linkWith]
      generalize att l0.2.1 = a at h2
      cases a with
      | lin k q dq => first | exact k.isRigid_pose _ | (change k.pose q * k.ipose q = 1; rw [k.ipose_eq]; exact (k.isRigid_pose _).mul_invBody)
      | free H T => first | exact h2 H T rfl | exact (h2 H T rfl).mul_invBody
      | fixed => first | exact isRigid_one | exact isRigid_one.mul_invBody
  rw [(C20_no_assertion 0 _ hval).1, C20_geometric _ hval, paths_map, List.map_map]
  congr 1
  apply List.map_congr_left
  intro x _
  simp only [Function.comp, List.map_map, RS.linkWith]
  rfl

end Arboris
