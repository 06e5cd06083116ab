import Verif.Proofs.MatlabConvert
import Verif.Spec.MatlabConvert
import Verif.Proofs.Loops
import Verif.Props.Mass

/-!
# Conversion of one joint
-/

namespace Arboris
open Graph Spec Build Matlab

lemma midMass_eq (c : Conf) : midMass c = diag6 c.base_mass c.base_mass c.base_mass (c.base_mass / 10) := by
  unfold midMass diag6
  rw [← Matrix.diagonal_smul]
  congr 1
  funext i
  fin_cases i <;> norm_num <;> ring

lemma midMass_ok {c : Conf} (h : 0 ≤ c.base_mass) : ismassmatrix (midMass c) true := by
  rw [midMass_eq]
  exact ismass_psd (diag6_rigid _ _ _ _) (diag6_psd h h h (by positivity))

lemma spine_congr {o o' : Objs} (h : ∀ f, o'.bodyOf f = o.bodyOf f) : ∀ L ch sib, spine o' L ch sib = spine o L ch sib
  | [], _, _ => rfl
  | [l], _, _ => by simp [spine, h]
  | l :: l' :: L, ch, sib => by simp [spine, h, spine_congr h (l' :: L)]

lemma replaceBy_congr {o o' : Objs} (h : ∀ f, o'.bodyOf f = o.bodyOf f) (old : ℕ) (L) (F) : replaceBy o' old L F = replaceBy o old L F := by
  induction F with
  | nil => rfl
  | cons l b ch sib ih1 ih2 => simp only [replaceBy, ih1, ih2, spine_congr h]

lemma replaceAll_congr {o o' : Objs} (h : ∀ f, o'.bodyOf f = o.bodyOf f) (C) (F) : replaceAll o' C F = replaceAll o C F := by
  induction F with
  | nil => rfl
  | cons l b ch sib ih1 ih2 => simp only [replaceAll, ih1, ih2, spine_congr h]

section one
variable {S : RS} {F : Forest (FrameRef × ℕ × FrameRef) ℕ} {c : Conf} {lim : ℕ} {l : FrameRef × ℕ × FrameRef}

lemma two_runs (hg : Good S F) (hl : l ∈ F.links) (hm : 0 ≤ c.base_mass) (hlim : depth F + 2 ≤ lim) (k1 k2 : LinKind) (n1 n2 : Option String) :
    ∃ S', Runs (do
      let a ← newJoint (.zero k1) n1
      let m ← newBody none (some (midMass c))
      let b ← newJoint (.zero k2) n2
      replaceP lim l.2.1 [.frame l.1, .joint a, .frame (.body m), .frame (.body m), .joint b, .frame l.2.2]) S () S' ∧
      Good S' (replaceBy S'.o l.2.1 [(l.1, S.nj, .body S.nb), (.body S.nb, S.nj + 1, l.2.2)] F) ∧ Keeps S S' ∧
      S'.nj = S.nj + 2 ∧ S'.nb = S.nb + 1 ∧
      S'.jattr S.nj = .lin k1 0 0 ∧ S'.jname S.nj = n1 ∧ S'.jattr (S.nj + 1) = .lin k2 0 0 ∧ S'.jname (S.nj + 1) = n2 ∧
      S'.mass S.nb = midMass c ∧ S'.bname S.nb = none := by
  obtain ⟨S1, r1, g1, kp1, kf1, f1, a1, b1, c1, d1, e1, -⟩ := newJoint_runs hg (.zero k1) n1
  obtain ⟨S2, r2, g2, kp2, kf2, f2, a2, b2, c2, d2, -⟩ := newBody_runs g1 none (mass := some (midMass c)) (.inr (midMass_ok hm))
  obtain ⟨S3, r3, g3, kp3, kf3, f3, a3, b3, c3, d3, e3, -⟩ := newJoint_runs g2 (.zero k2) n2
  rw [d1] at r2 f2 a2 b2 c2
  rw [d2, e1] at r3 f3 a3 b3 c3 e3
  have sm : Same S S3 := ((SameP.newJoint _ _ S _ S1 r1).trans (SameP.newBody _ _ S1 _ S2 r2)).trans (SameP.newJoint _ _ S2 _ S3 r3)
  have kp : Keeps S S3 := (kp1.trans kp2).trans kp3
  have fj : FreshJoint S3.w S.nj := kf3.joint _ (kf2.joint _ f1 (by simp)) (by simp)
  have fb : FreshBody S3.w S.nb := kf3.body _ f2 (by simp)
  have hnb : S.nb ∉ S3.w.ground :: F.bodies := fun h => g3.not_fresh h fb
  have nb3 : S3.nb = S.nb + 1 := by rw [d3, c2]
  have nj3 : S3.nj = S.nj + 2 := e3
  have hu := unfolds_ends g3.tree.unfolds hl
  have ho := g3.frames l hl
  have hlj : l.2.1 < S.nj := hg.joints _ (List.mem_map.mpr ⟨l, hl, rfl⟩)
  have ja : S3.jattr S.nj = .zero k1 := by rw [(kp3.joint S.nj (by omega)).1, (kp2.joint S.nj (by omega)).1]; exact a1
  have jn : S3.jname S.nj = n1 := by rw [(kp3.joint S.nj (by omega)).2.1, (kp2.joint S.nj (by omega)).2.1]; exact b1
  have jd : S3.o.ndof S.nj = (JAttr.zero k1).ndof := by
    rw [(kp3.joint S.nj (by omega)).2.2, (kp2.joint S.nj (by omega)).2.2]; exact c1
  obtain ⟨w', rw', gw, kw⟩ := replaceP_runs g3 (lim := lim) hl (L := [(l.1, S.nj, .body S.nb), (.body S.nb, S.nj + 1, l.2.2)])
    (by simpa using hlim)
    { ne := by simp
      path := ⟨rfl, rfl, rfl⟩
      joints := by
        intro x hx
        simp only [List.mem_cons, List.not_mem_nil, or_false] at hx
        rcases hx with rfl | rfl
        · exact .inr fj
        · exact .inr f3
      joints_nodup := by simp
      bodies := by
        intro x hx
        simp only [List.dropLast_cons₂, List.dropLast_singleton, List.mem_cons, List.not_mem_nil, or_false] at hx
        subst hx
        exact ⟨hnb, fb.2.1, fb.2.2⟩
      bodies_nodup := by simp }
    (by
      intro x hx
      simp only [List.mem_cons, List.not_mem_nil, or_false] at hx
      rcases hx with rfl | rfl
      · exact ⟨ho.1, show S.nb < S3.nb by omega⟩
      · exact ⟨show S.nb < S3.nb by omega, ho.2⟩)
    (by
      intro x hx
      simp only [List.mem_cons, List.not_mem_nil, or_false] at hx
      rcases hx with rfl | rfl
      · exact show S.nb < S3.nb by omega
      · exact g3.bodies _ hu.2.2.2)
    (by
      intro x hx
      simp only [List.mem_cons, List.not_mem_nil, or_false] at hx
      rcases hx with rfl | rfl
      · exact ⟨show S.nj < S3.nj by omega, by simp only; rw [ja]; exact jd⟩
      · exact ⟨show S.nj + 1 < S3.nj by omega, by simp only; rw [a3]; exact c3⟩)
  refine ⟨{ S3 with w := w' }, r1.bind (r2.bind (r3.bind rw')), gw, kp.trans kw, nj3, nb3, ja, jn, a3, b3, ?_, ?_⟩
  · change S3.mass S.nb = _
    rw [(kp3.body S.nb (by omega)).1]; exact a2
  · change S3.bname S.nb = _
    rw [(kp3.body S.nb (by omega)).2]; exact b2

lemma three_runs (hg : Good S F) (hl : l ∈ F.links) (hm : 0 ≤ c.base_mass) (hlim : depth F + 3 ≤ lim) (k1 k2 k3 : LinKind) (n1 n2 n3 : Option String) :
    ∃ S', Runs (do
      let a ← newJoint (.zero k1) n1
      let m ← newBody none (some (midMass c))
      let b ← newJoint (.zero k2) n2
      let m' ← newBody none (some (midMass c))
      let d ← newJoint (.zero k3) n3
      replaceP lim l.2.1 [.frame l.1, .joint a, .frame (.body m), .frame (.body m), .joint b, .frame (.body m'),
        .frame (.body m'), .joint d, .frame l.2.2]) S () S' ∧
      Good S' (replaceBy S'.o l.2.1 [(l.1, S.nj, .body S.nb), (.body S.nb, S.nj + 1, .body (S.nb + 1)), (.body (S.nb + 1), S.nj + 2, l.2.2)] F) ∧ Keeps S S' ∧
      S'.nj = S.nj + 3 ∧ S'.nb = S.nb + 2 ∧
      S'.jattr S.nj = .lin k1 0 0 ∧ S'.jname S.nj = n1 ∧ S'.jattr (S.nj + 1) = .lin k2 0 0 ∧ S'.jname (S.nj + 1) = n2 ∧
      S'.jattr (S.nj + 2) = .lin k3 0 0 ∧ S'.jname (S.nj + 2) = n3 ∧
      S'.mass S.nb = midMass c ∧ S'.bname S.nb = none ∧ S'.mass (S.nb + 1) = midMass c ∧ S'.bname (S.nb + 1) = none := by
  obtain ⟨S1, r1, g1, kp1, kf1, f1, a1, b1, c1, d1, e1, -⟩ := newJoint_runs hg (.zero k1) n1
  obtain ⟨S2, r2, g2, kp2, kf2, f2, a2, b2, c2, d2, -⟩ := newBody_runs g1 none (mass := some (midMass c)) (.inr (midMass_ok hm))
  obtain ⟨S3, r3, g3, kp3, kf3, f3, a3, b3, c3, d3, e3, -⟩ := newJoint_runs g2 (.zero k2) n2
  obtain ⟨S4, r4, g4, kp4, kf4, f4, a4, b4, c4, d4, -⟩ := newBody_runs g3 none (mass := some (midMass c)) (.inr (midMass_ok hm))
  obtain ⟨S5, r5, g5, kp5, kf5, f5, a5, b5, c5, d5, e5, -⟩ := newJoint_runs g4 (.zero k3) n3
  rw [d1] at r2 f2 a2 b2 c2
  rw [d2, e1] at r3 f3 a3 b3 c3 e3
  rw [d3, c2] at r4 f4 a4 b4 c4
  rw [d4, e3] at r5 f5 a5 b5 c5 e5
  have kp : Keeps S S5 := (((kp1.trans kp2).trans kp3).trans kp4).trans kp5
  have fj : FreshJoint S5.w S.nj := kf5.joint _ (kf4.joint _ (kf3.joint _ (kf2.joint _ f1 (by simp)) (by simp)) (by simp)) (by simp)
  have fj2 : FreshJoint S5.w (S.nj + 1) := kf5.joint _ (kf4.joint _ f3 (by simp)) (by simp)
  have fb : FreshBody S5.w S.nb := kf5.body _ (kf4.body _ (kf3.body _ f2 (by simp)) (by simp)) (by simp)
  have fb2 : FreshBody S5.w (S.nb + 1) := kf5.body _ f4 (by simp)
  have hnb : S.nb ∉ S5.w.ground :: F.bodies := fun h => g5.not_fresh h fb
  have hnb2 : S.nb + 1 ∉ S5.w.ground :: F.bodies := fun h => g5.not_fresh h fb2
  have nb3 : S3.nb = S.nb + 1 := by rw [d3, c2]
  have nb5 : S5.nb = S.nb + 2 := by rw [d5, c4]
  have nj5 : S5.nj = S.nj + 3 := e5
  have hu := unfolds_ends g5.tree.unfolds hl
  have ho := g5.frames l hl
  have j5 : S5.jattr S.nj = .zero k1 ∧ S5.jname S.nj = n1 ∧ S5.o.ndof S.nj = (JAttr.zero k1).ndof := by
    obtain ⟨x, y, z⟩ := (((kp2.trans kp3).trans kp4).trans kp5).joint S.nj (by omega)
    exact ⟨x.trans a1, y.trans b1, z.trans c1⟩
  have j5' : S5.jattr (S.nj + 1) = .zero k2 ∧ S5.jname (S.nj + 1) = n2 ∧ S5.o.ndof (S.nj + 1) = (JAttr.zero k2).ndof := by
    obtain ⟨x, y, z⟩ := (kp4.trans kp5).joint (S.nj + 1) (by omega)
    exact ⟨x.trans a3, y.trans b3, z.trans c3⟩
  obtain ⟨w', rw', gw, kw⟩ := replaceP_runs g5 (lim := lim) hl
    (L := [(l.1, S.nj, .body S.nb), (.body S.nb, S.nj + 1, .body (S.nb + 1)), (.body (S.nb + 1), S.nj + 2, l.2.2)])
    (by simpa using hlim)
    { ne := by simp
      path := ⟨rfl, rfl, rfl, rfl⟩
      joints := by
        intro x hx
        simp only [List.mem_cons, List.not_mem_nil, or_false] at hx
        rcases hx with rfl | rfl | rfl
        · exact .inr fj
        · exact .inr fj2
        · exact .inr f5
      joints_nodup := by simp
      bodies := by
        intro x hx
        simp only [List.dropLast_cons₂, List.dropLast_singleton, List.mem_cons, List.not_mem_nil, or_false] at hx
        rcases hx with rfl | rfl
        · exact ⟨hnb, fb.2.1, fb.2.2⟩
        · exact ⟨hnb2, fb2.2.1, fb2.2.2⟩
      bodies_nodup := by simp [Objs.bodyOf] }
    (by
      intro x hx
      simp only [List.mem_cons, List.not_mem_nil, or_false] at hx
      rcases hx with rfl | rfl | rfl
      · exact ⟨ho.1, show S.nb < S5.nb by omega⟩
      · exact ⟨show S.nb < S5.nb by omega, show S.nb + 1 < S5.nb by omega⟩
      · exact ⟨show S.nb + 1 < S5.nb by omega, ho.2⟩)
    (by
      intro x hx
      simp only [List.mem_cons, List.not_mem_nil, or_false] at hx
      rcases hx with rfl | rfl | rfl
      · exact show S.nb < S5.nb by omega
      · exact show S.nb + 1 < S5.nb by omega
      · exact g5.bodies _ hu.2.2.2)
    (by
      intro x hx
      simp only [List.mem_cons, List.not_mem_nil, or_false] at hx
      rcases hx with rfl | rfl | rfl
      · exact ⟨show S.nj < S5.nj by omega, by simp only; rw [j5.1]; exact j5.2.2⟩
      · exact ⟨show S.nj + 1 < S5.nj by omega, by simp only; rw [j5'.1]; exact j5'.2.2⟩
      · exact ⟨show S.nj + 2 < S5.nj by omega, by simp only; rw [a5]; exact c5⟩)
  refine ⟨{ S5 with w := w' }, r1.bind (r2.bind (r3.bind (r4.bind (r5.bind rw')))), gw, kp.trans kw, nj5, nb5, j5.1, j5.2.1, j5'.1, j5'.2.1,
    a5, b5, ?_, ?_, ?_, ?_⟩
  · change S5.mass S.nb = _
    rw [(((kp3.trans kp4).trans kp5).body S.nb (by omega)).1]; exact a2
  · change S5.bname S.nb = _
    rw [(((kp3.trans kp4).trans kp5).body S.nb (by omega)).2]; exact b2
  · change S5.mass (S.nb + 1) = _
    rw [(kp5.body (S.nb + 1) (by omega)).1]; exact a4
  · change S5.bname (S.nb + 1) = _
    rw [(kp5.body (S.nb + 1) (by omega)).2]; exact b4

/-- `convert_nonroot_joint`, at any moment of the conversion -/
lemma convertJoint_runs (hg : Good S F) (hl : l ∈ F.links) (hm : 0 ≤ c.base_mass) (hlim : depth F + 3 ≤ lim) (hroot : S.o.bodyOf l.1 ≠ S.w.ground) :
    ∃ S' C, Runs (convertJoint c lim l.2.1) S () S' ∧ Keeps S S' ∧ Split c.base_mass S S' l C ∧
      Good S' (match C with | none => F | some L => replaceBy S'.o l.2.1 L F) := by
  have hu := unfolds_ends hg.tree.unfolds hl
  have hmid : midMass c = Matrix.diagonal ![c.base_mass, c.base_mass, c.base_mass, c.base_mass / 10, c.base_mass / 10, c.base_mass / 10] := midMass_eq c
  have key : ∀ (p : RS → Prog Unit) S' , Runs (p S) S () S' → Runs (look >>= p) S () S' := fun p S' h => (show Runs look S S S from rfl).bind h
  have chk : ∀ (q : Prog Unit) S', Runs q S () S' → Runs (check (S.o.bodyOf l.1 ≠ S.w.ground) >>= fun _ => q) S () S' :=
    fun q S' h => (Runs.check hroot S).bind h
  have h2 : ∀ k1 k2, rotations (S.jattr l.2.1) = some [k1, k2] → ∀ n1 n2, n1 = (S.jname l.2.1).map (· ++ letters k1) →
      n2 = (S.jname l.2.1).map (· ++ letters k2) → ∃ S' C, Runs (do
      let a ← newJoint (.zero k1) n1
      let m ← newBody none (some (midMass c))
      let b ← newJoint (.zero k2) n2
      replaceP lim l.2.1 [.frame l.1, .joint a, .frame (.body m), .frame (.body m), .joint b, .frame l.2.2]) S () S' ∧ Keeps S S' ∧
      Split c.base_mass S S' l C ∧ Good S' (match C with | none => F | some L => replaceBy S'.o l.2.1 L F) := by
    rintro k1 k2 hr _ _ rfl rfl
    obtain ⟨S', r, g, kp, nj, nb, j1, j1n, j2, j2n, mm, bn⟩ := two_runs (c := c) hg hl hm (show depth F + 2 ≤ lim by omega) k1 k2
      ((S.jname l.2.1).map (· ++ letters k1)) ((S.jname l.2.1).map (· ++ letters k2))
    refine ⟨S', some [(l.1, S.nj, .body S.nb), (.body S.nb, S.nj + 1, l.2.2)], r, kp, ?_, g⟩
    unfold Split
    rw [hr]
    exact ⟨_, rfl, rfl, ⟨le_rfl, show S.nj < S'.nj by omega, j1, j1n⟩, S.nb, rfl, ⟨le_rfl, show S.nb < S'.nb by omega, by rw [mm, hmid], bn⟩, rfl, rfl, by simp, by simp [nj], j2, j2n⟩
  have hpass : rotations (S.jattr l.2.1) = none → ∃ S' C, Runs (pure () : Prog Unit) S () S' ∧ Keeps S S' ∧
      Split c.base_mass S S' l C ∧ Good S' (match C with | none => F | some L => replaceBy S'.o l.2.1 L F) := by
    intro hr
    exact ⟨S, none, Runs.pure _ _, .refl _, by unfold Split; rw [hr], hg⟩
  suffices hs : ∃ S' C, Runs (match S.jattr l.2.1 with
    | .lin .RzRyRx _ _ => (do
      let rz ← newJoint (.zero .Rz) (suffixed (S.jname l.2.1) "Rz")
      let bzy ← newBody none (some (midMass c))
      let ry ← newJoint (.zero .Ry) (suffixed (S.jname l.2.1) "Ry")
      let byx ← newBody none (some (midMass c))
      let rx ← newJoint (.zero .Rx) (suffixed (S.jname l.2.1) "Rx")
      replaceP lim l.2.1 [.frame l.1, .joint rz, .frame (.body bzy), .frame (.body bzy), .joint ry, .frame (.body byx),
        .frame (.body byx), .joint rx, .frame l.2.2])
    | .lin .RzRy _ _ => (do
      let rz ← newJoint (.zero .Rz) (suffixed (S.jname l.2.1) "Rz")
      let bzy ← newBody none (some (midMass c))
      let ry ← newJoint (.zero .Ry) (suffixed (S.jname l.2.1) "Ry")
      replaceP lim l.2.1 [.frame l.1, .joint rz, .frame (.body bzy), .frame (.body bzy), .joint ry, .frame l.2.2])
    | .lin .RyRx _ _ => (do
      let ry ← newJoint (.zero .Ry) (suffixed (S.jname l.2.1) "Ry")
      let byx ← newBody none (some (midMass c))
      let rx ← newJoint (.zero .Rx) (suffixed (S.jname l.2.1) "Rx")
      replaceP lim l.2.1 [.frame l.1, .joint ry, .frame (.body byx), .frame (.body byx), .joint rx, .frame l.2.2])
    | .lin .RzRx _ _ => (do
      let rz ← newJoint (.zero .Rz) (suffixed (S.jname l.2.1) "Rz")
      let bzx ← newBody none (some (midMass c))
      let rx ← newJoint (.zero .Rx) (suffixed (S.jname l.2.1) "Rx")
      replaceP lim l.2.1 [.frame l.1, .joint rz, .frame (.body bzx), .frame (.body bzx), .joint rx, .frame l.2.2])
    | _ => pure ()) S () S' ∧ Keeps S S' ∧ Split c.base_mass S S' l C ∧ Good S' (match C with | none => F | some L => replaceBy S'.o l.2.1 L F) by
    obtain ⟨S', C, h1, h⟩ := hs
    refine ⟨S', C, ?_, h⟩
    unfold convertJoint
    refine key _ S' ?_
    rw [hu.1, hu.2.1]
    exact chk _ S' h1
  rcases hja : S.jattr l.2.1 with ⟨k, q, dq⟩ | ⟨H, T⟩ | _
  · cases k with
    | RzRyRx =>
      obtain ⟨S', r, g, kp, nj, nb, j1, j1n, j2, j2n, j3, j3n, mm, bn, mm2, bn2⟩ := three_runs (c := c) hg hl hm hlim .Rz .Ry .Rx
        (suffixed (S.jname l.2.1) "Rz") (suffixed (S.jname l.2.1) "Ry") (suffixed (S.jname l.2.1) "Rx")
      refine ⟨S', some [(l.1, S.nj, .body S.nb), (.body S.nb, S.nj + 1, .body (S.nb + 1)), (.body (S.nb + 1), S.nj + 2, l.2.2)], r, kp, ?_, g⟩
      unfold Split
      rw [hja]
      exact ⟨_, rfl, rfl, ⟨le_rfl, show S.nj < S'.nj by omega, j1, j1n⟩, S.nb, rfl, ⟨le_rfl, show S.nb < S'.nb by omega, by rw [mm, hmid], bn⟩,
        rfl, ⟨by simp, by simp [nj], j2, j2n⟩, S.nb + 1, rfl, ⟨by simp, by simp [nb], by rw [mm2, hmid], bn2⟩,
        rfl, rfl, by simp, by simp [nj], j3, j3n⟩
    | RzRy => exact h2 .Rz .Ry (by rw [hja]; rfl) _ _ rfl rfl
    | RzRx => exact h2 .Rz .Rx (by rw [hja]; rfl) _ _ rfl rfl
    | RyRx => exact h2 .Ry .Rx (by rw [hja]; rfl) _ _ rfl rfl
    | Rz => exact hpass (by rw [hja]; rfl)
    | Ry => exact hpass (by rw [hja]; rfl)
    | Rx => exact hpass (by rw [hja]; rfl)
    | TxTyTz => exact hpass (by rw [hja]; rfl)
    | Tz => exact hpass (by rw [hja]; rfl)
    | Ty => exact hpass (by rw [hja]; rfl)
    | Tx => exact hpass (by rw [hja]; rfl)
  · exact hpass (by rw [hja]; rfl)
  · exact hpass (by rw [hja]; rfl)

end one

end Arboris
