import Verif.Proofs.GraphIter

/-!
# C54–C58: the kinematic structure and the registries, over every history of API calls

`runAll o lim (World.new g) ops` is the world after the calls `ops` on a new world (exceptions included); `lim` is
Python's recursion limit.
-/

namespace Arboris
open Graph Spec

/-! ## C54: the structure stays a tree -/

/-- C54.  After any allowed history the world is a finite tree rooted at the ground: no body and no joint occurs
twice, parent and child links agree. -/
theorem C54_tree (o : Objs) (lim g : ℕ) (ops : List Op) (h : AllowedHistory o lim (World.new g) ops) :
    ∃ F, IsTree o (runAll o lim (World.new g) ops) F :=
  (GInv.runAll (GInv.new o g) h).isTree

/-- C54.  The tree is unique. -/
theorem C54_unique {o : Objs} {w : World} {F F' : Forest (FrameRef × ℕ × FrameRef) ℕ} (h : IsTree o w F)
    (h' : IsTree o w F') : F = F' := Unfolds.det h.unfolds h'.unfolds

/-- C54.  `iterbodies` and `iterjoints` terminate on it and enumerate every body (ground first) and every joint
exactly once, depth first. -/
theorem C54_iter {o : Objs} {w : World} {F : Forest (FrameRef × ℕ × FrameRef) ℕ} (h : IsTree o w F) {lim : ℕ}
    (hl : depth F < lim) :
    iterBodies o w lim = .ok (w.ground :: F.bodies) ∧ iterJoints o w lim = .ok (joints F) ∧
    (w.ground :: F.bodies).Nodup ∧ (joints F).Nodup := by
  refine ⟨?_, Unfolds.iterDescJoints h.unfolds hl, h.bodies_nodup, h.joints_nodup⟩
  rw [iterBodies, Unfolds.iterDescBodies h.unfolds hl]
  rfl

/-- C54.  `iter_ancestor_bodies` of a body climbs the path that leads to it, down to the ground. -/
theorem C54_ancestors {o : Objs} {w : World} {F : Forest (FrameRef × ℕ × FrameRef) ℕ} (h : IsTree o w F)
    {c : ℕ} {path : List (FrameRef × ℕ × FrameRef)} (hc : (c, path) ∈ F.paths) :
    iterAncestorBodies o w (path.length + 1) c = .ok (path.map fun l => o.bodyOf l.1).reverse := by
  have h0 : iterAncestorBodies o w 1 w.ground = .ok [] := by
    rw [iterAncestorBodies, h.root]
  have := Unfolds.ancestors h.unfolds h0 _ hc
  simpa [Nat.add_comm] using this

/-- C54.  A successful `add_link` that hangs a fresh body below a body of the world adds exactly that body. -/
theorem C54_grows {o : Objs} {lim g : ℕ} {ops : List Op} (hh : AllowedHistory o lim (World.new g) ops)
    {w w' : World} (hw : w = runAll o lim (World.new g) ops)
    {F : Forest (FrameRef × ℕ × FrameRef) ℕ} (hF : IsTree o w F)
    {f0 f1 : FrameRef} {j : ℕ} (h0 : o.bodyOf f0 ∈ w.ground :: F.bodies)
    (h1 : o.bodyOf f1 ≠ w.ground) (hleaf : (w.body (o.bodyOf f1)).children = [])
    (hok : addLink o w [.frame f0, .joint j, .frame f1] = (w', .ok ())) :
    o.bodyOf f1 ∉ w.ground :: F.bodies ∧
    ∃ F', IsTree o w' F' ∧ (w'.ground :: F'.bodies).Perm (w.ground :: F.bodies ++ [o.bodyOf f1]) := by
  have hI : GInv o w := hw ▸ GInv.runAll (GInv.new o g) hh
  obtain ⟨e, he⟩ | ⟨f0', j', f1', rest, hargs, hj0, hj1, hr, hcase⟩ :=
    addLink_cases o w [.frame f0, .joint j, .frame f1]
  · rw [hok] at he; simp at he
  · simp only [List.cons.injEq, Arg.frame.injEq, Arg.joint.injEq] at hargs
    obtain ⟨rfl, rfl, rfl, rfl⟩ := hargs
    have hw' : (addLink1 o w f0 j f1).1 = w' ∧ (addLink1 o w f0 j f1).2 = .ok () := by
      rcases hcase with ⟨e, _, he⟩ | ⟨h2, _, he⟩ | ⟨_, hne, _⟩
      · rw [hok] at he; simp at he
      · rw [hok] at he; simp only [Prod.mk.injEq, and_true] at he; exact ⟨he.symm, h2⟩
      · simp at hne
    have hp : (w.body (o.bodyOf f1)).parent = none := by
      have := hw'.2
      unfold Graph.addLink1 at this
      simp only at this
      split_ifs at this with hp
      simpa using hp
    have hI' : GInv o w' := hw'.1 ▸ hI.addLink1 hj0 h1
    have hnot : o.bodyOf f1 ∉ w.ground :: F.bodies := by
      intro hm
      obtain ⟨p, hp'⟩ := (hF.mem_iff hI _).mp hm
      cases p with
      | nil => exact h1 hp'.nil_inv
      | cons k p =>
        have := hp'.parent hI
        rw [hp] at this; simp at this
    refine ⟨hnot, ?_⟩
    obtain ⟨F', hF'⟩ := hI'.isTree
    have hg' : w'.ground = w.ground := by rw [← hw'.1]; simp
    refine ⟨F', hF', (List.perm_ext_iff_of_nodup hF'.bodies_nodup ?_).mpr fun c => ?_⟩
    · refine List.nodup_append.mpr ⟨hF.bodies_nodup, by simp, fun a ha b hb => ?_⟩
      simp at hb; subst hb; rintro rfl; exact hnot ha
    · rw [hF'.mem_iff hI', List.mem_append, hF.mem_iff hI, List.mem_singleton]
      have hk0 : ∀ b, j ∉ (w.body b).children := fun b hb => by
        obtain ⟨_, _, a, _⟩ := hI.kids b j hb
        rw [hj0] at a; simp at a
      constructor
      · rintro ⟨p, hp'⟩
        rw [← hw'.1] at hp'
        rcases addLink1_rpath_inv hk0 hp hleaf (fun e => hnot (e ▸ h0)) hp' with hq | hq
        · exact Or.inl ⟨p, hq⟩
        · exact Or.inr hq
      · rintro (⟨p, hp'⟩ | rfl)
        · exact ⟨p, hw'.1 ▸ addLink1_rpath hI hj0 hp hp'⟩
        · obtain ⟨p, hp'⟩ := (hF.mem_iff hI _).mp h0
          refine ⟨j :: p, ?_⟩
          have hb := addLink1_rpath (f0 := f0) (f1 := f1) hI hj0 hp hp'
          rw [hw'.1] at hb
          refine .step hb ?_ ?_
          · have := addLink1_ok hw'.2
            rw [hw'.1] at this
            rw [this]; simp
          · rw [← hw'.1]
            unfold Graph.addLink1
            simp only
            rw [if_pos (by simpa using hp)]
            simp [setFrames_frame1]

/-! ## C55: kinematic loops -/

/-- the claim: after any sequence of `add_link` calls the bodies can be enumerated -/
def C55_Claim : Prop := ∀ (o : Objs) (g : ℕ) (ops : List (List Arg)),
  ∃ lim l, iterBodies o (runAll o 0 (World.new g) (ops.map Op.addLink)) lim = .ok l

/-- two links: ground → body 1, then body 1 → ground -/
def loopOps : List (List Arg) :=
  [[.frame (.body 0), .joint 0, .frame (.body 1)], [.frame (.body 1), .joint 1, .frame (.body 0)]]

def plainObjs : Objs := ⟨fun _ => 0, fun _ => .body 0, fun _ => [], fun _ => 1⟩

lemma loop_accepted : (addLink plainObjs (World.new 0) (loopOps.flatten)).2 = .ok () := rfl

/-- C55 is false of the code: a link that closes a loop on the ground is accepted, and enumerating the bodies then
never ends (it raises at every recursion limit). -/
theorem C55_false : ¬ C55_Claim := by
  intro h
  obtain ⟨lim, l, hl⟩ := h plainObjs 0 loopOps
  set w := runAll plainObjs 0 (World.new 0) (loopOps.map Op.addLink) with hw
  have c0 : (w.body 0).children = [0] := rfl
  have c1 : (w.body 1).children = [1] := rfl
  have f0 : frame1Body plainObjs w 0 = .ok 1 := rfl
  have f1 : frame1Body plainObjs w 1 = .ok 0 := rfl
  have key : ∀ k, ¬ (∃ l, iterDescBodies plainObjs w k 0 = .ok l) ∧ ¬ (∃ l, iterDescBodies plainObjs w k 1 = .ok l) := by
    intro k
    induction k with
    | zero => constructor <;> (rintro ⟨l, hl⟩; simp [iterDescBodies] at hl)
    | succ k ih =>
      constructor
      · rintro ⟨l, hl⟩
        rw [iterDescBodies, c0] at hl
        rcases hx : iterDescBodies plainObjs w k 1 with e | l'
        · simp [f0, bind, Except.bind, pure, Except.pure, hx] at hl
        · exact ih.2 ⟨_, hx⟩
      · rintro ⟨l, hl⟩
        rw [iterDescBodies, c1] at hl
        rcases hx : iterDescBodies plainObjs w k 0 with e | l'
        · simp [f1, bind, Except.bind, pure, Except.pure, hx] at hl
        · exact ih.1 ⟨_, hx⟩
  unfold iterBodies at hl
  rcases hx : iterDescBodies plainObjs w lim w.ground with e | l'
  · rw [hx] at hl; simp [bind, Except.bind] at hl
  · exact (key lim).1 ⟨_, hx⟩

/-- C55, what does hold (missing: loops closed on the ground itself, or built entirely outside the world).  Hanging
again a body that is already in the tree is refused with `ValueError`, and the tree is unaffected. -/
theorem C55_refused_partial {o : Objs} {lim g : ℕ} {ops : List Op} (hh : AllowedHistory o lim (World.new g) ops)
    {w : World} (hw : w = runAll o lim (World.new g) ops)
    {F : Forest (FrameRef × ℕ × FrameRef) ℕ} (hF : IsTree o w F)
    {f0 f1 : FrameRef} {j : ℕ} (h0 : (w.joint j).frame0 = none) (h1 : (w.joint j).frame1 = none)
    (hb : o.bodyOf f1 ∈ F.bodies) :
    ∃ w', addLink o w [.frame f0, .joint j, .frame f1] = (w', .error .valueError) ∧ IsTree o w' F := by
  have hI : GInv o w := hw ▸ GInv.runAll (GInv.new o g) hh
  have hpar : (w.body (o.bodyOf f1)).parent ≠ none := by
    obtain ⟨p, hp⟩ := (hF.mem_iff hI _).mp (List.mem_cons_of_mem _ hb)
    cases p with
    | nil =>
      have := (List.nodup_cons.mp hF.bodies_nodup).1
      rw [← hp.nil_inv] at this
      exact absurd hb this
    | cons k p => rw [hp.parent hI]; simp
  refine ⟨setFrames w j (some f0) (some f1), ?_, ?_⟩
  · rw [addLink, if_pos ⟨h0, h1, rfl⟩]
    have : addLink1 o w f0 j f1 = (setFrames w j (some f0) (some f1), .error .valueError) := by
      unfold addLink1
      simp only
      rw [if_neg (by simpa using hpar)]
    rw [this]
  · have hI' := hI.setFrames h0 (some f0) (some f1)
    have hne : ∀ b, j ∉ (w.body b).children := fun b hb => by
      obtain ⟨_, _, a, _⟩ := hI.kids b j hb
      rw [h0] at a; simp at a
    have hu : ∀ {b js G}, Unfolds o w b js G → (∀ k ∈ js, k ≠ j) → Unfolds o (setFrames w j (some f0) (some f1)) b js G := by
      intro b js G hG
      induction hG with
      | nil => exact fun _ => .nil _
      | @cons b k js f0 f1 ch sib h0 h1 hb hpar hch hsib ihc ihs =>
        intro hk
        have hkj := hk k List.mem_cons_self
        refine .cons ?_ ?_ hb hpar (ihc fun k' hk' e => hne _ (e ▸ hk')) (ihs fun k hk' => hk k (List.mem_cons_of_mem _ hk'))
        · rw [setFrames_frame0, if_neg hkj, h0]
        · rw [setFrames_frame1, if_neg hkj, h1]
    exact ⟨hu hF.unfolds (fun k hk e => hne _ (e ▸ hk)), hF.root, hF.bodies_nodup, hF.joints_nodup⟩

/-- the hypotheses of C54/C55 are met by a branching history with a refused call in the middle -/
example : AllowedHistory plainObjs 5 (World.new 0)
    [.addLink [.frame (.body 0), .joint 0, .frame (.body 1), .frame (.body 1), .joint 1, .frame (.body 2)],
     .addLink [.frame (.body 0), .joint 2, .frame (.body 2)],
     .addLink [.frame (.body 0), .joint 3, .frame (.body 3)],
     .replaceJoint 0 [.joint 4], .init] := by
  refine ⟨?_, ?_, ?_, ⟨?_, Or.inl rfl⟩, trivial, trivial⟩ <;>
    intro f hf <;> simp [frame1s] at hf <;> rcases hf with rfl | rfl <;> decide

/-! ## C56: failing `add_link` -/

/-- the claim: `add_link` that raises leaves every object as it was -/
def C56_Claim : Prop := ∀ (o : Objs) (w w' : World) (args : List Arg) (e : PyErr),
  addLink o w args = (w', .error e) → w' = w

/-- C56 is false of the code: a refused joint keeps the frames of the refused link, so it can never be used again;
and in a multi-link call the links before the refused one stay. -/
theorem C56_false : ¬ C56_Claim ∧
    (∃ (o : Objs) (w w' : World) (args : List Arg), addLink o w args = (w', .error .valueError) ∧
      (∃ l, (addLink o w l).2 = .ok ()) ∧
      ∀ f0 f1 j, args = [.frame f0, .joint j, .frame f1] →
        ∀ g0 g1 rest, (addLink o w' (.frame g0 :: .joint j :: .frame g1 :: rest)).2 = .error .assertion) ∧
    (∃ (o : Objs) (w w' : World) (args : List Arg), addLink o w args = (w', .error .valueError) ∧
      iterBodies o w 9 = .ok [0] ∧ iterBodies o w' 9 = .ok [0, 1]) := by
  have hbad : ∃ (o : Objs) (w w' : World) (args : List Arg) (f0 f1 : FrameRef) (j : ℕ),
      addLink o w args = (w', .error .valueError) ∧ args = [.frame f0, .joint j, .frame f1] ∧
      (∃ l, (addLink o w l).2 = .ok ()) ∧ (w'.joint j).frame0 ≠ none ∧ (w.joint j).frame0 = none := by
    refine ⟨plainObjs, (addLink plainObjs (World.new 0) [.frame (.body 0), .joint 0, .frame (.body 1)]).1, _,
      [.frame (.body 0), .joint 1, .frame (.body 1)], .body 0, .body 1, 1, rfl, rfl,
      ⟨[.frame (.body 1), .joint 1, .frame (.body 2)], rfl⟩, ?_, rfl⟩
    simp [setFrames]
  refine ⟨?_, ?_, ?_⟩
  · intro h
    obtain ⟨o, w, w', args, f0, f1, j, h1, -, -, h2, h3⟩ := hbad
    rw [h o w w' args _ h1] at h2
    exact h2 h3
  · obtain ⟨o, w, w', args, f0, f1, j, h1, h4, h5, h2, h3⟩ := hbad
    refine ⟨o, w, w', args, h1, h5, ?_⟩
    intro f0' f1' j' he g0 g1 rest
    rw [h4] at he
    simp only [List.cons.injEq, Arg.joint.injEq, and_true] at he
    obtain ⟨_, rfl, _⟩ := he
    rw [addLink, if_neg (by simp [h2])]
  · exact ⟨plainObjs, World.new 0, _, [.frame (.body 0), .joint 0, .frame (.body 1), .frame (.body 0), .joint 1,
      .frame (.body 1)], rfl, rfl, rfl⟩

/-- C56, what does hold (missing: the joint's own frames, and the links before the failing one in a multi-link call).
A failing single-link `add_link` leaves all bodies, all registries and all other joints as they were; if it failed on
an assertion, everything is as it was. -/
theorem C56_partial {o : Objs} {w w' : World} {f0 f1 : FrameRef} {j : ℕ} {e : PyErr}
    (h : addLink o w [.frame f0, .joint j, .frame f1] = (w', .error e)) :
    w'.body = w.body ∧ w'.ground = w.ground ∧ w'.subframes = w.subframes ∧ w'.shapes = w.shapes ∧
    w'.constraints = w.constraints ∧ w'.controllers = w.controllers ∧ (∀ k ≠ j, w'.joint k = w.joint k) ∧
    (e = .assertion → w' = w) := by
  by_cases hc : (w.joint j).frame0 = none ∧ (w.joint j).frame1 = none ∧ ([] : List Arg).length % 3 = 0
  · rw [addLink, if_pos hc] at h
    by_cases hp : ((setFrames w j (some f0) (some f1)).body (o.bodyOf f1)).parent = none
    · have : (addLink1 o w f0 j f1).2 = .ok () := by unfold addLink1; simp only; rw [if_pos hp]
      rcases hx : addLink1 o w f0 j f1 with ⟨w1, e' | ⟨⟩⟩
      · rw [hx] at this; simp at this
      · rw [hx] at h; simp at h
    · have : addLink1 o w f0 j f1 = (setFrames w j (some f0) (some f1), .error .valueError) := by
        unfold addLink1; simp only; rw [if_neg hp]
      rw [this] at h
      simp only [Prod.mk.injEq, Except.error.injEq] at h
      obtain ⟨rfl, rfl⟩ := h
      exact ⟨rfl, rfl, rfl, rfl, rfl, rfl, fun k hk => by simp [setFrames, hk], by simp⟩
  · rw [addLink, if_neg hc] at h
    simp only [Prod.mk.injEq, Except.error.injEq] at h
    obtain ⟨rfl, rfl⟩ := h
    simp

example : ∃ w', addLink plainObjs (runAll plainObjs 0 (World.new 0)
    [.addLink [.frame (.body 0), .joint 0, .frame (.body 1)]]) [.frame (.body 0), .joint 1, .frame (.body 1)] =
      (w', .error .valueError) := ⟨_, rfl⟩

end Arboris
