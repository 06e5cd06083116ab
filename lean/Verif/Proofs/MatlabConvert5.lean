import Verif.Proofs.MatlabConvert4
import Verif.Props.SubFrames

/-!
# Conversion of the root joint
-/

namespace Arboris
open Graph Spec Build Matlab

section
variable {S : RS} {F : Forest (FrameRef × ℕ × FrameRef) ℕ} {c : Conf} {lim : ℕ}

lemma massBox_ok {x y z m : ℝ} (h : 0 ≤ m) : ismassmatrix (massBox x y z m) true := by
  unfold massBox
  exact ismass_psd (diag6_rigid _ _ _ _) (diag6_psd (by positivity) (by positivity) (by positivity) h)

/-- the free joint and the base, put between the ground and the old root -/
lemma base_runs (hg : Good S F) {l : FrameRef × ℕ × FrameRef} (hl : l ∈ F.links) {M : Mat6} (hM : ismassmatrix M true) (hlim : depth F + 2 ≤ lim) :
    ∃ S', Runs (do
      let base ← newBody none (some M)
      let fr ← newJoint (.free 1 0) none
      replaceP lim l.2.1 [.frame l.1, .joint fr, .frame (.body base), .frame (.body base), .joint l.2.1, .frame l.2.2]
      pure base) S S.nb S' ∧
      Good S' (replaceBy S'.o l.2.1 [(l.1, S.nj, .body S.nb), (.body S.nb, l.2.1, l.2.2)] F) ∧ Keeps S S' ∧ Same S S' ∧
      S'.nj = S.nj + 1 ∧ S'.nb = S.nb + 1 ∧ S'.ns = S.ns ∧ S'.nsh = S.nsh ∧ S'.jattr S.nj = .free 1 0 ∧ S'.jname S.nj = none ∧
      S'.mass S.nb = M ∧ S'.bname S.nb = none := by
  obtain ⟨S1, r1, g1, kp1, kf1, f1, a1, b1, c1, d1, e1, h1, -⟩ := newBody_runs hg none (mass := some M) (.inr hM)
  obtain ⟨S2, r2, g2, kp2, kf2, f2, a2, b2, c2, d2, e2, h2, i2, -⟩ := newJoint_runs g1 (.free 1 0) none
  rw [d1] at r2 f2 a2 b2 c2 e2
  have kp : Keeps S S2 := kp1.trans kp2
  have fb : FreshBody S2.w S.nb := kf2.body _ f1 (by simp)
  have hnb : S.nb ∉ S2.w.ground :: F.bodies := fun h => g2.not_fresh h fb
  have nb2 : S2.nb = S.nb + 1 := by rw [d2, c1]
  have hu := unfolds_ends g2.tree.unfolds hl
  have ho := g2.frames l hl
  have hjo : l.2.1 ∈ joints F := List.mem_map.mpr ⟨l, hl, rfl⟩
  have hlj : l.2.1 < S.nj := hg.joints _ hjo
  obtain ⟨w', rw', gw, kw⟩ := replaceP_runs g2 (lim := lim) hl (L := [(l.1, S.nj, .body S.nb), (.body S.nb, l.2.1, l.2.2)])
    (by simpa using hlim)
    { ne := by simp
      path := ⟨rfl, rfl, rfl⟩
      joints := by
        intro x hx
        simp only [List.mem_cons, List.not_mem_nil, or_false] at hx
        rcases hx with rfl | rfl
        · exact .inr f2
        · exact .inl rfl
      joints_nodup := by simp; omega
      bodies := by
        intro x hx
        simp only [List.dropLast_cons₂, List.dropLast_singleton, List.mem_cons, List.not_mem_nil, or_false] at hx
        subst hx
        exact ⟨hnb, fb.2.1, fb.2.2⟩
      bodies_nodup := by simp }
    (by
      intro x hx
      simp only [List.mem_cons, List.not_mem_nil, or_false] at hx
      rcases hx with rfl | rfl
      · exact ⟨ho.1, show S.nb < S2.nb by omega⟩
      · exact ⟨show S.nb < S2.nb by omega, ho.2⟩)
    (by
      intro x hx
      simp only [List.mem_cons, List.not_mem_nil, or_false] at hx
      rcases hx with rfl | rfl
      · exact show S.nb < S2.nb by omega
      · exact g2.bodies _ hu.2.2.2)
    (by
      intro x hx
      simp only [List.mem_cons, List.not_mem_nil, or_false] at hx
      rcases hx with rfl | rfl
      · exact ⟨show S.nj < S2.nj by omega, by simp only; rw [a2]; exact c2⟩
      · exact ⟨g2.joints _ hjo, g2.ndof _ hjo⟩)
  refine ⟨{ S2 with w := w' }, Runs.bind r1 (Runs.bind r2 (Runs.bind rw' (Runs.pure S.nb _))), gw, kp.trans kw, ?_, e2, nb2, ?_, ?_, a2, b2, ?_, ?_⟩
  · exact ((SameP.newBody _ _ _ _ _ r1).trans (SameP.newJoint _ _ _ _ _ r2)).trans (SameP.replaceP _ _ _ _ _ _ rw')
  · exact h2.trans e1
  · exact i2.trans h1
  · change S2.mass S.nb = _
    rw [(kp2.body S.nb (by omega)).1]; exact a1
  · change S2.bname S.nb = _
    rw [(kp2.body S.nb (by omega)).2]; exact b1

/-- a shape on a frame, registered -/
lemma shape_runs (hg : Good S F) (f : FrameRef) {g : ShapeGeo} (ho : g.ok) (hn : S.nsh ∉ S.w.shapes) :
    ∃ S', Runs (do
      let sh ← newShape f g none
      reg (.shape sh)
      pure sh) S S.nsh S' ∧ Good S' F ∧ Keeps S S' ∧ S'.w.shapes = S.w.shapes ++ [S.nsh] ∧ S'.w.constraints = S.w.constraints ∧
      S'.w.controllers = S.w.controllers ∧ S'.o.conKids = S.o.conKids ∧ S'.o.subBody = S.o.subBody ∧ S'.o.shapeFrame S.nsh = f ∧ S'.geo S.nsh = g.stored ∧
      S'.nb = S.nb ∧ S'.nj = S.nj ∧ S'.ns = S.ns ∧ S'.nsh = S.nsh + 1 := by
  obtain ⟨S1, r1, g1, k1, -, a1, b1, c1, d1, e1, h1, i1, w1⟩ := newShape_runs hg f ho none
  obtain ⟨w', r2, g2, k2, -⟩ := regShape_runs g1 S.nsh
  have hS1 : S1.o.conKids = S.o.conKids ∧ S1.o.subBody = S.o.subBody := by
    unfold Runs newShape at r1
    rw [if_neg (not_not.mpr ho)] at r1
    cases r1
    exact ⟨rfl, rfl⟩
  have hw : w' = registerFrame { S1.w with shapes := addNew S1.w.shapes S.nsh } (S1.o.shapeFrame S.nsh) := by
    unfold Runs reg at r2
    simp only [register] at r2
    have := congrArg (fun x : Except PyErr (Unit × RS) => match x with | .ok y => y.2.w | .error _ => S.w) r2
    exact this.symm
  refine ⟨{ S1 with w := w' }, r1.bind (r2.bind (Runs.pure _ _)), g2, k1.trans k2, ?_, ?_, ?_, hS1.1, hS1.2, a1, b1, d1, e1, h1, i1⟩
  · subst hw
    have : (registerFrame { S1.w with shapes := addNew S1.w.shapes S.nsh } (S1.o.shapeFrame S.nsh)).shapes = addNew S1.w.shapes S.nsh := by
      cases S1.o.shapeFrame S.nsh <;> rfl
    change (registerFrame { S1.w with shapes := addNew S1.w.shapes S.nsh } (S1.o.shapeFrame S.nsh)).shapes = _
    rw [this, w1, addNew, if_neg hn]
  · subst hw
    have := (regKept_registerFrame { S1.w with shapes := addNew S1.w.shapes S.nsh } (S1.o.shapeFrame S.nsh)).constraints
    exact this.trans (by rw [w1])
  · subst hw
    have := (regKept_registerFrame { S1.w with shapes := addNew S1.w.shapes S.nsh } (S1.o.shapeFrame S.nsh)).controllers
    exact this.trans (by rw [w1])

/-- a contact, registered -/
lemma contact_runs (hg : Good S F) (con s0 s1 : ℕ) (hc : con ∉ S.w.constraints) :
    ∃ S', Runs (do
      newContact con s0 s1
      reg (.con con)) S () S' ∧ Good S' F ∧ Keeps S S' ∧ S'.w.shapes = S.w.shapes ∧ S'.w.constraints = S.w.constraints ++ [con] ∧
      S'.w.controllers = S.w.controllers ∧ S'.o.shapeFrame = S.o.shapeFrame ∧ S'.geo = S.geo ∧
      S'.o.conKids = Function.update S.o.conKids con [.sub S.ns, .sub (S.ns + 1)] ∧
      S'.o.subBody S.ns = S.o.bodyOf (S.o.shapeFrame s0) ∧ S'.o.subBody (S.ns + 1) = S.o.bodyOf (S.o.shapeFrame s1) ∧
      S'.nb = S.nb ∧ S'.nj = S.nj ∧ S'.ns = S.ns + 2 ∧ S'.nsh = S.nsh := by
  obtain ⟨S1, r1, g1, k1, -, a1, b1, c1, d1, e1, h1, i1, w1⟩ := newSub_runs hg (S.o.bodyOf (S.o.shapeFrame s0)) ishom_one none
  obtain ⟨S2, r2, g2, k2, -, a2, b2, c2, d2, e2, h2, i2, w2⟩ := newSub_runs g1 (S.o.bodyOf (S.o.shapeFrame s1)) ishom_one none
  rw [h1] at r2 a2
  have s1' : S1.o.conKids = S.o.conKids ∧ S1.o.shapeFrame = S.o.shapeFrame ∧ S1.geo = S.geo := by
    unfold Runs newSub at r1
    rw [if_pos ishom_one] at r1
    cases r1
    exact ⟨rfl, rfl, rfl⟩
  have s2' : S2.o.conKids = S1.o.conKids ∧ S2.o.shapeFrame = S1.o.shapeFrame ∧ S2.geo = S1.geo := by
    unfold Runs newSub at r2
    rw [if_pos ishom_one] at r2
    injection r2 with r2
    have := congrArg Prod.snd r2
    simp only at this
    rw [← this]
    exact ⟨rfl, rfl, rfl⟩
  set o3 : Objs := { S2.o with conKids := Function.update S2.o.conKids con [.sub S.ns, .sub (S.ns + 1)] } with ho3
  set w3 : World := [FrameRef.sub S.ns, .sub (S.ns + 1)].foldl registerFrame { S2.w with constraints := S2.w.constraints ++ [con] } with hw3
  have kr : ∀ (l : List FrameRef) (w : World), (l.foldl registerFrame w).shapes = w.shapes ∧ (l.foldl registerFrame w).constraints = w.constraints ∧
      (l.foldl registerFrame w).controllers = w.controllers ∧ (∀ f ∈ w.subframes, f ∈ (l.foldl registerFrame w).subframes) ∧
      (l.foldl registerFrame w).body = w.body ∧ (l.foldl registerFrame w).joint = w.joint ∧ (l.foldl registerFrame w).ground = w.ground := by
    intro l
    induction l with
    | nil => exact fun w => ⟨rfl, rfl, rfl, fun _ h => h, rfl, rfl, rfl⟩
    | cons f l ih =>
      intro w
      have h := regKept_registerFrame w f
      obtain ⟨p1, p2, p3, p4, p5, p6, p7⟩ := ih (registerFrame w f)
      exact ⟨p1.trans h.shapes, p2.trans h.constraints, p3.trans h.controllers, fun x hx => p4 x (h.subframes x hx),
        p5.trans (by cases f <;> rfl), p6.trans (by cases f <;> rfl), p7.trans (by cases f <;> rfl)⟩
  obtain ⟨q1, q2, q3, q4, q5, q6, q7⟩ := kr [FrameRef.sub S.ns, .sub (S.ns + 1)] { S2.w with constraints := S2.w.constraints ++ [con] }
  have hbo : ∀ f, o3.bodyOf f = S2.o.bodyOf f := fun f => by cases f <;> rfl
  have hrun : Runs (do
      newContact con s0 s1
      reg (.con con)) S () { S2 with o := o3, w := w3 } := by
    refine Runs.bind (S' := { S2 with o := o3 }) (a := ()) ?_ ?_
    · unfold newContact
      refine (show Runs look S S S from rfl).bind (r1.bind (r2.bind ?_))
      rfl
    · unfold Runs reg register
      have hc2 : con ∉ S2.w.constraints := by rw [w2, w1]; exact hc
      simp only [if_neg hc2, ho3, Function.update_self, hw3]
  refine ⟨{ S2 with o := o3, w := w3 }, hrun, ?_, (k1.trans k2).trans ?_, ?_, ?_, ?_, ?_, ?_, ?_, ?_, a2, ?_, ?_, ?_, ?_⟩
  · refine ⟨?_, ?_, g2.bodies, ?_, g2.joints, g2.ndof⟩
    · refine g2.tree.congr q7 (fun b _ => ?_) (fun j _ => ?_) (fun l _ => ⟨hbo _, hbo _⟩)
      · change w3.body b = _; rw [hw3, q5]
      · change w3.joint j = _; rw [hw3, q6]
    · change w3.ground < S2.nb; rw [hw3, q7]; exact g2.ground
    · intro l hl
      have := g2.frames l hl
      refine ⟨?_, ?_⟩
      · cases hl1 : l.1 <;> rw [hl1] at this <;> exact this.1
      · cases hl1 : l.2.2 <;> rw [hl1] at this <;> exact this.2
  · refine ⟨le_rfl, le_rfl, le_rfl, le_rfl, q7, fun _ _ => ⟨rfl, rfl⟩, fun _ _ => ⟨rfl, rfl, rfl⟩, fun _ _ => ⟨rfl, rfl, rfl⟩, fun _ _ => ⟨rfl, rfl, rfl⟩, q4, ?_⟩
    intro s hs; change s ∈ w3.shapes; rw [hw3, q1]; exact hs
  · change w3.shapes = _; rw [hw3, q1]; change S2.w.shapes = _; rw [w2, w1]
  · change w3.constraints = _; rw [hw3, q2]; change S2.w.constraints ++ _ = _; rw [w2, w1]
  · change w3.controllers = _; rw [hw3, q3]; change S2.w.controllers = _; rw [w2, w1]
  · exact s2'.2.1.trans s1'.2.1
  · exact s2'.2.2.trans s1'.2.2
  · change Function.update S2.o.conKids _ _ = _; rw [s2'.1, s1'.1]
  · change S2.o.subBody S.ns = _; rw [(k2.sub S.ns (by omega)).2.2]; exact a1
  · exact d2.trans d1
  · exact e2.trans e1
  · change S2.ns = _; omega
  · change S2.nsh = _; omega

end

end Arboris
