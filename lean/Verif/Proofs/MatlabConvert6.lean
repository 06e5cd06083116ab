import Verif.Proofs.MatlabConvert5

/-!
# Conversion of the root joint: shapes and contacts
-/

namespace Arboris
open Graph Spec Build Matlab

section
variable {S : RS} {F : Forest (FrameRef × ℕ × FrameRef) ℕ} {c : Conf} {lim : ℕ}

lemma Runs.andThen {α β : Type} {p : Prog α} {q : α → Prog Unit} {k : α → Prog β} {S S' S'' : RS} {a : α} {b : β}
    (h : Runs (do let x ← p; q x; Pure.pure x) S a S') (h' : Runs (k a) S' b S'') : Runs (do let x ← p; q x; k x) S b S'' := by
  have := Runs.bind h h'
  simpa only [bind_assoc, pure_bind] using this

lemma Spec.IsFoot.mono {S S' : RS} {base g sh con : ℕ} {r : ℝ} {H : Mat4} (h : IsFoot S base g r H sh con) (k : Keeps S S') (hc : S'.o.conKids con = S.o.conKids con) :
    IsFoot S' base g r H sh con := by
  obtain ⟨h1, h2, ⟨sf, h3, h4, h5, h6⟩, m0, h7, m1, h8, h9, h10, h11⟩ := h
  refine ⟨h1.trans_le k.nsh, (k.shape _ h1).1.trans h2, ⟨sf, h3.trans_le k.ns, (k.shape _ h1).2.2.trans h4, (k.sub _ h3).2.2.trans h5,
    (k.sub _ h3).1.trans h6⟩, m0, h7.trans_le k.ns, m1, h8.trans_le k.ns, hc.trans h9, (k.sub _ h7).2.2.trans h10, (k.sub _ h8).2.2.trans h11⟩

lemma newSub_rest {S S' : RS} {b n : ℕ} {H : Mat4} {nm : Option String} (h : Runs (newSub b H nm) S n S') :
    S'.o.conKids = S.o.conKids ∧ S'.o.shapeFrame = S.o.shapeFrame ∧ S'.geo = S.geo := by
  unfold Runs newSub at h
  by_cases hH : ishomogeneousmatrix H
  · rw [if_pos hH] at h
    injection h with h
    have := congrArg Prod.snd h
    simp only at this
    rw [← this]
    exact ⟨rfl, rfl, rfl⟩
  · rw [if_neg hH] at h
    cases h

lemma foot_runs (hg : Good S F) (hr : 0 ≤ c.contact_radius) {base gp con : ℕ} (hp : Past S con) (hgp : gp < S.nsh) {g : ℕ} (hgf : S.o.shapeFrame gp = .body g) (i j : ℝ) :
    ∃ S' sh, Runs (addFoot c base gp (i, j, con)) S () S' ∧ Good S' F ∧ Keeps S S' ∧ Past S' (con + 1) ∧
      S'.w.shapes = S.w.shapes ++ [sh] ∧ S'.w.constraints = S.w.constraints ++ [con] ∧ S'.w.controllers = S.w.controllers ∧
      (∀ x < con, S'.o.conKids x = S.o.conKids x) ∧ S'.nb = S.nb ∧ S'.nj = S.nj ∧
      IsFoot S' base g c.contact_radius
        (transl (i * c.base_lengths 0 / 2) (-c.base_lengths 1 / 2) (j * c.base_lengths 2 / 2)) sh con := by
  obtain ⟨S1, r1, g1, k1, -, a1, b1, c1, d1, e1, h1, i1, w1⟩ := newSub_runs hg base
    (C01_transl (i * c.base_lengths 0 / 2) (-c.base_lengths 1 / 2) (j * c.base_lengths 2 / 2)).ishom none
  obtain ⟨q1, q2, q3⟩ := newSub_rest r1
  obtain ⟨S2, r2, g2, k2, sh2, co2, ct2, ck2, sb2, sf2, ge2, nb2, nj2, ns2, nsh2⟩ := shape_runs g1 (.sub S.ns) (g := .sphere c.contact_radius) hr (by
    intro h
    rw [w1] at h
    have := hp.shapes _ h
    omega)
  have hc2 : con ∉ S2.w.constraints := by
    rw [co2, w1]
    intro h
    exact lt_irrefl _ (hp.cons _ h)
  obtain ⟨S3, r3, g3, k3, sh3, co3, ct3, sf3, ge3, ck3, m0, m1, nb3, nj3, ns3, nsh3⟩ := contact_runs g2 con gp S1.nsh hc2
  have hgp2 : S2.o.shapeFrame gp = S.o.shapeFrame gp := by
    rw [(k2.shape gp (by omega)).2.2, q2]
  have hsf : S2.o.bodyOf (S2.o.shapeFrame S1.nsh) = base := by
    rw [sf2]
    change S2.o.subBody S.ns = _
    rw [sb2, a1]
  rw [hsf] at m1
  have hck : ∀ x, x ≠ con → S3.o.conKids x = S.o.conKids x := by
    intro x hx
    rw [ck3, Function.update_of_ne hx, ck2, q1]
  have kk := (k1.trans k2).trans k3
  refine ⟨S3, S1.nsh, ?_, g3, kk, ⟨?_, ?_⟩, ?_, ?_, ?_, fun x hx => hck x (by omega), by omega, by omega, ?_⟩
  · unfold addFoot
    exact r1.bind (Runs.andThen r2 r3)
  · intro s hs
    rw [sh3, sh2, w1] at hs
    rcases List.mem_append.mp hs with h | h
    · have := hp.shapes _ h; omega
    · have := List.mem_singleton.mp h; omega
  · intro x hx
    rw [co3, co2, w1] at hx
    rcases List.mem_append.mp hx with h | h
    · have := hp.cons _ h; omega
    · have := List.mem_singleton.mp h; omega
  · rw [sh3, sh2, w1]
  · rw [co3, co2, w1]
  · rw [ct3, ct2, w1]
  · refine ⟨by omega, ?_, ⟨S.ns, by omega, ?_, ?_, ?_⟩, S2.ns, by omega, S2.ns + 1, by omega, ?_, ?_, m1⟩
    · rw [ge3, ge2]; rfl
    · rw [sf3, sf2]
    · rw [(k3.sub S.ns (by omega)).2.2, (k2.sub S.ns (by omega)).2.2, a1]
    · rw [(k3.sub S.ns (by omega)).1, (k2.sub S.ns (by omega)).1, b1]
    · rw [ck3, Function.update_self]
    · rw [m0, hgp2, hgf]
      rfl

lemma neg_one_half (x : ℝ) : (-1 : ℝ) * x / 2 = -x / 2 := by ring

/-- the box on the ground, the spheres and the contacts -/
lemma feet_runs (hg : Good S F) (hr : 0 ≤ c.contact_radius) {con g : ℕ} (hp : Past S con) (base : ℕ) :
    ∃ S' gp s1 s2 s3 s4, Runs (do
      let gp ← newShape (.body g) (.box fun i => c.base_lengths i / 2 + 2 * c.contact_radius) none
      reg (.shape gp)
      [(1, 1, con), (1, -1, con + 1), (-1, -1, con + 2), (-1, 1, con + 3)].forM (addFoot c base gp)) S () S' ∧ Good S' F ∧ Keeps S S' ∧
    S'.nb = S.nb ∧ S'.nj = S.nj ∧ S'.w.controllers = S.w.controllers ∧
    S'.w.shapes = S.w.shapes ++ [gp, s1, s2, s3, s4] ∧ S'.w.constraints = S.w.constraints ++ [con, con + 1, con + 2, con + 3] ∧
    gp < S'.nsh ∧ S'.o.shapeFrame gp = .body g ∧ S'.geo gp = .box (fun i => c.base_lengths i / 2 + 2 * c.contact_radius) ∧
    IsFoot S' base g c.contact_radius (transl (c.base_lengths 0 / 2) (-c.base_lengths 1 / 2) (c.base_lengths 2 / 2)) s1 con ∧
    IsFoot S' base g c.contact_radius (transl (c.base_lengths 0 / 2) (-c.base_lengths 1 / 2) (-c.base_lengths 2 / 2)) s2 (con + 1) ∧
    IsFoot S' base g c.contact_radius (transl (-c.base_lengths 0 / 2) (-c.base_lengths 1 / 2) (-c.base_lengths 2 / 2)) s3 (con + 2) ∧
    IsFoot S' base g c.contact_radius (transl (-c.base_lengths 0 / 2) (-c.base_lengths 1 / 2) (c.base_lengths 2 / 2)) s4 (con + 3) := by
  obtain ⟨S0, r0, g0, k0, sh0, co0, ct0, ck0, sb0, sf0, ge0, nb0, nj0, ns0, nsh0⟩ := shape_runs hg (.body g)
    (g := .box fun i => c.base_lengths i / 2 + 2 * c.contact_radius) trivial (fun h => lt_irrefl _ (hp.shapes _ h))
  have p0 : Past S0 con := by
    refine ⟨fun s hs => ?_, fun x hx => ?_⟩
    · rw [sh0] at hs
      rcases List.mem_append.mp hs with h | h
      · have := hp.shapes _ h; omega
      · have := List.mem_singleton.mp h; omega
    · rw [co0] at hx
      exact hp.cons _ hx
  obtain ⟨S1, s1, r1, g1, k1, p1, sh1, co1, ct1, ck1, nb1, nj1, f1⟩ := foot_runs g0 hr (base := base) p0 (gp := S.nsh) (by omega) sf0 1 1
  obtain ⟨S2, s2, r2, g2, k2, p2, sh2, co2, ct2, ck2, nb2, nj2, f2⟩ := foot_runs g1 hr (base := base) p1 (gp := S.nsh) (by have := k1.nsh; omega)
    ((k1.shape S.nsh (by omega)).2.2.trans sf0) 1 (-1)
  have k12 := k1.trans k2
  obtain ⟨S3, s3, r3, g3, k3, p3, sh3, co3, ct3, ck3, nb3, nj3, f3⟩ := foot_runs g2 hr (base := base) p2 (gp := S.nsh) (by have := k12.nsh; omega)
    ((k12.shape S.nsh (by omega)).2.2.trans sf0) (-1) (-1)
  have k13 := k12.trans k3
  obtain ⟨S4, s4, r4, g4, k4, p4, sh4, co4, ct4, ck4, nb4, nj4, f4⟩ := foot_runs g3 hr (base := base) p3 (gp := S.nsh) (by have := k13.nsh; omega)
    ((k13.shape S.nsh (by omega)).2.2.trans sf0) (-1) 1
  have k14 := k13.trans k4
  rw [one_mul, one_mul] at f1
  rw [one_mul, neg_one_half] at f2
  rw [neg_one_half, neg_one_half] at f3
  rw [neg_one_half, one_mul] at f4
  refine ⟨S4, S.nsh, s1, s2, s3, s4, ?_, g4, k0.trans k14, by omega, by omega, ?_, ?_, ?_, by have := k14.nsh; omega, ?_, ?_, ?_, ?_, ?_, f4⟩
  · refine Runs.andThen r0 ?_
    refine r1.bind (r2.bind (r3.bind (r4.bind ?_)))
    rfl
  · rw [ct4, ct3, ct2, ct1, ct0]
  · rw [sh4, sh3, sh2, sh1, sh0]; simp
  · rw [co4, co3, co2, co1, co0]; simp
  · rw [(k14.shape S.nsh (by omega)).2.2, sf0]
  · rw [(k14.shape S.nsh (by omega)).1, ge0]; rfl
  · refine f1.mono ((k2.trans k3).trans k4) ?_
    rw [ck4 _ (by omega), ck3 _ (by omega), ck2 _ (by omega)]
  · refine f2.mono (k3.trans k4) ?_
    rw [ck4 _ (by omega), ck3 _ (by omega)]
  · refine f3.mono k4 ?_
    rw [ck4 _ (by omega)]

lemma floating_mono {S S' S'' : RS} {l : FrameRef × ℕ × FrameRef} {X} (k : Keeps S' S'') (h : Floating c S S' l X) : Floating c S S'' l X := by
  unfold Floating at *
  split
  · rename_i e; rw [e] at h; exact h
  · have h' : ∃ fr base, X = some [(l.1, fr, .body base), (.body base, l.2.1, l.2.2)] ∧ S.nj ≤ fr ∧ fr < S'.nj ∧ S.nb ≤ base ∧ base < S'.nb ∧
      S'.jattr fr = .free 1 0 ∧ S'.jname fr = none ∧ S'.bname base = none ∧
      S'.mass base = massBox (c.base_lengths 0) (c.base_lengths 1) (c.base_lengths 2) c.base_mass := by
      cases hj : S.jattr l.2.1 with
      | free H T => rename_i e; exact absurd hj (e H T)
      | lin a b d => rw [hj] at h; exact h
      | fixed => rw [hj] at h; exact h
    obtain ⟨fr, base, h1, h2, h3, h4, h5, h6, h7, h8, h9⟩ := h'
    exact ⟨fr, base, h1, h2, h3.trans_le k.nj, h4, h5.trans_le k.nb, (k.joint _ h3).1.trans h6, (k.joint _ h3).2.1.trans h7, (k.body _ h5).2.trans h8,
      (k.body _ h5).1.trans h9⟩

lemma feetOn_mono {con : ℕ} {S S' S'' : RS} {l : FrameRef × ℕ × FrameRef} {X} (k : Keeps S' S'') (sm : Same S' S'') (h : FeetOn c con S S' l X) : FeetOn c con S S'' l X := by
  unfold FeetOn at *
  split
  · rename_i e; rw [e] at h; exact ⟨sm.shapes.trans h.1, sm.constraints.trans h.2.1, sm.shapeFrame.trans h.2.2.1, sm.conKids.trans h.2.2.2⟩
  · rename_i e
    cases hj : S.jattr l.2.1 with
    | free H T => exact absurd hj (e H T)
    | lin a b d =>
      rw [hj] at h
      obtain ⟨base, fr, gp, s1, s2, s3, s4, h1, h2, h3, h4, h5, h6, f1, f2, f3, f4⟩ := h
      exact ⟨base, fr, gp, s1, s2, s3, s4, h1, sm.shapes.trans h2, sm.constraints.trans h3, h4.trans_le k.nsh, (k.shape _ h4).2.2.trans h5, (k.shape _ h4).1.trans h6,
        f1.mono k (by rw [sm.conKids]), f2.mono k (by rw [sm.conKids]), f3.mono k (by rw [sm.conKids]), f4.mono k (by rw [sm.conKids])⟩
    | fixed =>
      rw [hj] at h
      obtain ⟨base, fr, gp, s1, s2, s3, s4, h1, h2, h3, h4, h5, h6, f1, f2, f3, f4⟩ := h
      exact ⟨base, fr, gp, s1, s2, s3, s4, h1, sm.shapes.trans h2, sm.constraints.trans h3, h4.trans_le k.nsh, (k.shape _ h4).2.2.trans h5, (k.shape _ h4).1.trans h6,
        f1.mono k (by rw [sm.conKids]), f2.mono k (by rw [sm.conKids]), f3.mono k (by rw [sm.conKids]), f4.mono k (by rw [sm.conKids])⟩

lemma root_runs (hg : Good S F) {l : FrameRef × ℕ × FrameRef} (hl : l ∈ F.links) (hroot : S.o.bodyOf l.1 = S.w.ground) (hm : 0 ≤ c.base_mass)
    (hlim : depth F + 2 ≤ lim) {con : ℕ} (hp : NotFreeJ S l.2.1 → Past S con ∧ 0 ≤ c.contact_radius) :
    ∃ S' X, Runs (convertRoot c lim con l.2.1) S () S' ∧ ConvInv S F S' (Function.update (fun _ => none) l.2.1 X) ∧ Floating c S S' l X ∧ FeetOn c con S S' l X ∧
      S'.w.controllers = S.w.controllers := by
  have hu := unfolds_ends hg.tree.unfolds hl
  have hf0 := hu.1
  have hf1 := hu.2.1
  by_cases hfree : NotFreeJ S l.2.1
  · obtain ⟨hp, hr⟩ := hp hfree
    obtain ⟨S1, r1, g1, k1, sm1, nj1, nb1, ns1, nsh1, ja1, jn1, ma1, bn1⟩ := base_runs (lim := lim) hg hl
      (massBox_ok (x := c.base_lengths 0) (y := c.base_lengths 1) (z := c.base_lengths 2) hm) hlim
    have hp1 : Past S1 con := ⟨fun s hs => by rw [sm1.shapes] at hs; rw [nsh1]; exact hp.shapes s hs, fun x hx => by rw [sm1.constraints] at hx; exact hp.cons x hx⟩
    obtain ⟨S2, gp, s1, s2, s3, s4, r2, g2, k2, nb2, nj2, ct2, sh2, co2, o2, sf2, ge2, f1, f2, f3, f4⟩ := feet_runs (c := c) (g := S.w.ground) g1 hr hp1 S.nb
    have k12 := k1.trans k2
    have hrun : Runs (convertRoot c lim con l.2.1) S () S2 := by
      unfold convertRoot
      refine (show Runs look S S S from rfl).bind ?_
      simp only [hf0, hf1]
      refine (Runs.check hroot S).bind ?_
      have := Runs.bind (q := fun base => (do
        let gp ← newShape (.body S.w.ground) (.box fun i => c.base_lengths i / 2 + 2 * c.contact_radius) none
        reg (.shape gp)
        [(1, 1, con), (1, -1, con + 1), (-1, -1, con + 2), (-1, 1, con + 3)].forM (addFoot c base gp) : Prog Unit)) r1 r2
      simp only [bind_assoc, pure_bind] at this
      cases hj : S.jattr l.2.1 with
      | free H T => exact absurd hj (hfree H T)
      | lin a b d => exact this
      | fixed => exact this
    have ho := (hg.frames l hl).2
    have hbo : S2.o.bodyOf l.2.2 = S1.o.bodyOf l.2.2 := by rw [k12.bodyOf ho, k1.bodyOf ho]
    have hsp : ∀ ch sib, spine S2.o [(l.1, S.nj, .body S.nb), (.body S.nb, l.2.1, l.2.2)] ch sib = spine S1.o [(l.1, S.nj, .body S.nb), (.body S.nb, l.2.1, l.2.2)] ch sib := by
      intro ch sib
      simp only [spine, hbo]
      rfl
    have hrep : ∀ F', replaceAll S2.o (Function.update (fun _ => none) l.2.1 (some [(l.1, S.nj, .body S.nb), (.body S.nb, l.2.1, l.2.2)])) F' =
        replaceBy S1.o l.2.1 [(l.1, S.nj, .body S.nb), (.body S.nb, l.2.1, l.2.2)] F' := by
      intro F'
      induction F' with
      | nil => rfl
      | cons x b ch sib ih1 ih2 =>
        by_cases e : x.2.1 = l.2.1
        · simp only [replaceAll, replaceBy, e, Function.update_self, ih1, ih2, if_true, hsp]
        · simp only [replaceAll, replaceBy, Function.update_of_ne e, ih1, ih2, if_neg e]
    have hsome : ∀ l' ∈ F.links, ∀ L, Function.update (fun _ => none) l.2.1 (some [(l.1, S.nj, FrameRef.body S.nb), (.body S.nb, l.2.1, l.2.2)]) l'.2.1 = some L →
        l' = l ∧ L = [(l.1, S.nj, .body S.nb), (.body S.nb, l.2.1, l.2.2)] := by
      intro l' hl' L e
      by_cases e' : l'.2.1 = l.2.1
      · rw [e', Function.update_self] at e
        exact ⟨List.inj_on_of_nodup_map hg.tree.joints_nodup hl' hl e', (Option.some.inj e).symm⟩
      · rw [Function.update_of_ne e'] at e
        cases e
    refine ⟨S2, some [(l.1, S.nj, .body S.nb), (.body S.nb, l.2.1, l.2.2)], hrun, ?_, ?_, ?_, ct2.trans sm1.controllers⟩
    · refine ⟨by rw [hrep]; exact g2, k12, ?_, ?_, ?_⟩
      · intro l' hl' L e
        obtain ⟨rfl, rfl⟩ := hsome l' hl' L e
        exact ⟨by simp, rfl⟩
      · intro l' hl' L e
        obtain ⟨rfl, rfl⟩ := hsome l' hl' L e
        simp
      · intro l' hl' L e x hx
        obtain ⟨rfl, rfl⟩ := hsome l' hl' L e
        simp only [List.mem_cons, List.not_mem_nil, or_false] at hx
        rcases hx with rfl | rfl
        · exact .inr le_rfl
        · exact .inl rfl
    · have : ∃ fr base, some [(l.1, S.nj, FrameRef.body S.nb), (.body S.nb, l.2.1, l.2.2)] = some [(l.1, fr, .body base), (.body base, l.2.1, l.2.2)] ∧ S.nj ≤ fr ∧ fr < S2.nj ∧
          S.nb ≤ base ∧ base < S2.nb ∧ S2.jattr fr = .free 1 0 ∧ S2.jname fr = none ∧ S2.bname base = none ∧
          S2.mass base = massBox (c.base_lengths 0) (c.base_lengths 1) (c.base_lengths 2) c.base_mass :=
        ⟨S.nj, S.nb, rfl, le_rfl, by omega, le_rfl, by omega, (k2.joint _ (by omega)).1.trans ja1, (k2.joint _ (by omega)).2.1.trans jn1,
          (k2.body _ (by omega)).2.trans bn1, (k2.body _ (by omega)).1.trans ma1⟩
      unfold Floating
      cases hj : S.jattr l.2.1 with
      | free H T => exact absurd hj (hfree H T)
      | lin a b d => exact this
      | fixed => exact this
    · unfold FeetOn
      rw [sm1.shapes] at sh2
      rw [sm1.constraints] at co2
      cases hj : S.jattr l.2.1 with
      | free H T => exact absurd hj (hfree H T)
      | lin a b d => exact ⟨S.nb, S.nj, gp, s1, s2, s3, s4, rfl, sh2, co2, o2, sf2, ge2, f1, f2, f3, f4⟩
      | fixed => exact ⟨S.nb, S.nj, gp, s1, s2, s3, s4, rfl, sh2, co2, o2, sf2, ge2, f1, f2, f3, f4⟩
  · unfold NotFreeJ at hfree
    push Not at hfree
    obtain ⟨H, T, hj⟩ := hfree
    refine ⟨S, none, ?_, ?_, ?_, ?_, rfl⟩
    · unfold convertRoot
      refine (show Runs look S S S from rfl).bind ?_
      simp only [hf0, hf1, hj]
      exact (Runs.check hroot S).bind (Runs.pure _ _)
    · rw [show Function.update (fun _ => none) l.2.1 none = (fun _ => none : ℕ → Option (List (FrameRef × ℕ × FrameRef))) by simp]
      exact ⟨by rw [replaceAll_none]; exact hg, .refl _, fun _ _ _ e => (by cases e), fun _ _ _ e => (by cases e), fun _ _ _ e => (by cases e)⟩
    · unfold Floating; rw [hj]
    · unfold FeetOn; rw [hj]; exact ⟨rfl, rfl, rfl, rfl⟩

end

end Arboris
