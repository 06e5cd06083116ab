import Verif.Props.Matlab

/-!
# C112: masses and initial state of a robot written for Matlab; C113: its shapes
-/

namespace Arboris
open Graph Build Spec Matlab Matrix

/-! ### masses -/

/-- the twist, linear part first: the convention of arboris-matlab -/
def swapTwist (V : Vec6) : Vec6 := tw (lin V) (ang V)

lemma swapTwist_swap (V : Vec6) : swapTwist (swapTwist V) = V := by
  unfold swapTwist; simp

/-- C112.  The mass matrix in the file is the body's, for twists that have their linear part first: same momentum (up to the
same exchange), same kinetic energy for every twist; it is symmetric when the body's is. -/
theorem C112_mass (M : Mat6) : (∀ V, flipMass M *ᵥ swapTwist V = swapTwist (M *ᵥ V)) ∧
    (∀ V, swapTwist V ⬝ᵥ (flipMass M *ᵥ swapTwist V) = V ⬝ᵥ (M *ᵥ V)) ∧ (M.IsSymm → (flipMass M).IsSymm) ∧
    (∀ V, V ≠ 0 → swapTwist V ≠ 0) := by
  have h1 : ∀ V, flipMass M *ᵥ swapTwist V = swapTwist (M *ᵥ V) := by
    intro V
    unfold flipMass swapTwist
    conv_rhs => rw [← blk_eta M, ← tw_ang_lin V, blk_mulVec]
    rw [blk_mulVec]
    simp only [ang_tw, lin_tw]
    rw [add_comm (b22 M *ᵥ lin V), add_comm (b12 M *ᵥ lin V)]
  refine ⟨h1, ?_, ?_, ?_⟩
  · intro V
    rw [h1]
    unfold swapTwist
    rw [tw_dot, add_comm, ← tw_dot, tw_ang_lin, tw_ang_lin]
  · intro h
    unfold Matrix.IsSymm at h ⊢
    rw [← blk_eta M, blk_transpose, blk_inj] at h
    unfold flipMass
    rw [blk_transpose, blk_inj]
    exact ⟨h.2.2.2, h.2.2.1, h.2.1, h.1⟩
  · intro V hV h0
    apply hV
    rw [← swapTwist_swap V, h0]
    unfold swapTwist
    rw [show lin (0 : Vec6) = 0 from rfl, show ang (0 : Vec6) = 0 from rfl, tw_zero]

/-! ### the initial state -/

lemma ofFn_lin (T : Vec6) : ((List.ofFn T).drop 3).take 3 = List.ofFn (lin T) := by
  simp [List.ofFn_succ, lin]

lemma ofFn_ang (T : Vec6) : (List.ofFn T).take 3 = List.ofFn (ang T) := by
  simp [List.ofFn_succ, ang]

/-- C112.  The file ends with the robot's state: the pose of the free joint, the positions of the hinges one after the other in
the order of the links (that of C111), and as velocity the free joint's twist, linear part first, then the hinges'. -/
theorem C112_state {S : RS} {p : ℕ} {l : FrameRef × ℕ × FrameRef} {b : ℕ} {ch : Forest (FrameRef × ℕ × FrameRef) ℕ}
    (h : IsMatlabRobot S p l b ch) (hch : ch ≠ .nil) {lim : ℕ} (hl : depth ch + 1 < lim)
    (hs : ∀ v ∈ S.w.shapes, S.o.bodyOf (S.o.shapeFrame v) ∈ b :: ch.bodies ∧ ¬ isPlane (S.geo v)) {H : Mat4} {T : Vec6}
    (hr : S.jattr l.2.1 = .free H T) (name : String) (out : List Item) :
    ∃ s', makeRobot S lim l.2.1 name ⟨out, [], []⟩ = .ok () s' ∧
      s'.out.getLast? = some (.state H (.vec (ch.links.flatMap fun l => gposList (S.jattr l.2.1)))
        (List.ofFn (lin T) ++ List.ofFn (ang T) ++ ch.links.flatMap fun l => gvelList (S.jattr l.2.1))) ∧
      ∀ l' ∈ ch.links, ∃ q dq : ℝ, gposList (S.jattr l'.2.1) = [q] ∧ gvelList (S.jattr l'.2.1) = [dq] := by
  obtain ⟨s', h1, h2⟩ := makeRobot_run h hch hl hs hr name out
  refine ⟨s', h1, ?_, ?_⟩
  · rw [h2, robotFile, ofFn_lin, ofFn_ang]
    rw [← List.append_assoc, List.getLast?_concat]
    simp [List.flatMap_map]
  · intro l' hl'
    have := h.hinges l' hl'
    rcases ha : S.jattr l'.2.1 with ⟨k, q, dq⟩ | ⟨H, T⟩ | _
    · rw [ha] at this
      cases k <;> simp [hinge] at this
      all_goals exact ⟨q (0 : Fin 1), dq (0 : Fin 1), by simp [gposList, LinKind.ndof]; exact List.ofFn_succ, by simp [gvelList, LinKind.ndof]; exact List.ofFn_succ⟩
    · rw [ha] at this; simp [hinge] at this
    · rw [ha] at this; simp [hinge] at this

/-- C112 is about, for instance, the robot of C111 -/
example : ∃ s', makeRobot exRS 9 0 "r" ⟨[], [], []⟩ = .ok () s' ∧ s'.out.getLast? = some (.state 1 (.vec [1, 5, 3]) [3, 4, 5, 0, 1, 2, 2, 6, 4]) := by
  obtain ⟨s', h1, h2, -⟩ := C112_state (exRobot []) (by simp [exTree]) (lim := 9) (by decide) (by simp) rfl "r" []
  refine ⟨s', h1, h2.trans ?_⟩
  simp [exRS, exTree, Forest.links, gposList, gvelList, LinKind.ndof, lin, ang, List.ofFn_succ]

/-! ### a generator used twice -/

/-- a run of `make_robot` up to `_finish`, whatever the generator did before -/
lemma body_run {S : RS} {p : ℕ} {l : FrameRef × ℕ × FrameRef} {b : ℕ} {ch : Forest (FrameRef × ℕ × FrameRef) ℕ}
    (h : IsMatlabRobot S p l b ch) {lim : ℕ} (hl : depth ch + 1 < lim)
    (hs : ∀ v ∈ S.w.shapes, S.o.bodyOf (S.o.shapeFrame v) ∈ b :: ch.bodies ∧ ¬ isPlane (S.geo v)) (name : String) (s : St) :
    ∃ s1, body S lim l.2.1 name s = finish s1 ∧ s1.vals = s.vals ++ S.jattr l.2.1 :: ch.links.map fun l => S.jattr l.2.1 := by
  obtain ⟨br, ht⟩ := traverse_robot h hl { s with out := s.out ++ [.tree name] }
  have hshapes := addShapes_run (S := S) (s := appendSt S (robotE p l b ch) { s with out := s.out ++ [.tree name] }) (by
    intro v hv
    refine ⟨lookup_isSome ?_, (hs v hv).2⟩
    have := (hs v hv).1
    rw [← robotE_bodies p l b ch] at this
    obtain ⟨e, he, heq⟩ := List.mem_map.mp this
    simp only [appendSt, List.map_append, List.map_reverse, List.map_map, List.mem_append, List.mem_reverse, List.mem_map]
    exact .inl ⟨e, he, by simp [onName, heq]⟩)
  have hb : body S lim l.2.1 name s = finish { appendSt S (robotE p l b ch) { s with out := s.out ++ [.tree name] } with
      out := (appendSt S (robotE p l b ch) { s with out := s.out ++ [.tree name] }).out ++
        allShapes S (appendSt S (robotE p l b ch) { s with out := s.out ++ [.tree name] }).bmap } := by
    unfold body
    rw [bind_run]
    simp only [write, modify, modifyGet, MonadStateOf.modifyGet, EStateM.modifyGet]
    rw [bind_run, addBranch_run] at ht ⊢
    simp only at ht ⊢
    rw [bind_run, ht]
    simp only
    rw [bind_run, hshapes]
  exact ⟨_, hb, by simp [appendSt, robotE_vals]⟩

lemma hstackPos_mixed {l l' : List JAttr} {H : Mat4} {T : Vec6} (hne : l ≠ []) (h : ∀ a ∈ l, (hinge a).isSome) :
    hstackPos (l ++ .free H T :: l') = .error .valueError := by
  have h1 : (l ++ .free H T :: l').mapM matOf = none := by
    cases l with
    | nil => exact absurd rfl hne
    | cons a l =>
      rcases a with ⟨k, q, dq⟩ | ⟨H, T⟩ | _
      · simp [matOf]
      · have := h _ List.mem_cons_self; simp [hinge] at this
      · simp [matOf]
  have h2 : (l ++ .free H T :: l').mapM vecOf = none := by
    clear h1 hne
    induction l with
    | nil => simp [vecOf]
    | cons a l ih =>
      rw [List.cons_append, List.mapM_cons, ih fun a ha => h a (List.mem_cons_of_mem _ ha)]
      cases vecOf a <;> rfl
  unfold hstackPos
  rw [if_neg (by simp), h1, h2]

/-- **C112.** The `q` a generator puts in the initial state, of all the joints but the first: of free joints, their
matrices; of other joints, their positions one after another; of both, or of none, there is none (`ValueError`). -/
theorem C112_hstack (l : List JAttr) :
    (∀ Hs : List Mat4, Hs ≠ [] → List.Forall₂ (fun a H => ∃ T, a = .free H T) l Hs → hstackPos l = .ok (.mats Hs)) ∧
    (l ≠ [] → (∀ a ∈ l, ∀ H T, a ≠ .free H T) → hstackPos l = .ok (.vec (l.flatMap gposList))) ∧
    (∀ a ∈ l, ∀ b ∈ l, ∀ H T, a = .free H T → (∀ H T, b ≠ .free H T) → hstackPos l = .error .valueError) ∧
    (l = [] → hstackPos l = .error .valueError) := by
  have hm : ∀ (l : List JAttr) (b : JAttr), b ∈ l → (∀ H T, b ≠ .free H T) → l.mapM matOf = none := by
    intro l b hb h
    induction l with
    | nil => cases hb
    | cons a l ih =>
      rw [List.mapM_cons]
      rcases List.mem_cons.mp hb with rfl | hb
      · cases b with
        | free H T => exact absurd rfl (h H T)
        | lin k q dq => rfl
        | fixed => rfl
      · rw [ih hb]
        cases matOf a <;> rfl
  refine ⟨?_, ?_, ?_, ?_⟩
  · intro Hs hne hf
    have h1 : l.mapM matOf = some Hs := by
      clear hne
      induction hf with
      | nil => rfl
      | cons ha _ ih =>
        obtain ⟨T, rfl⟩ := ha
        rw [List.mapM_cons, ih]
        rfl
    unfold hstackPos
    rw [if_neg (by rintro rfl; cases hf; exact hne rfl), h1]
  · intro hne hn
    have h1 : l.mapM matOf = none := by
      cases l with
      | nil => exact absurd rfl hne
      | cons b l => exact hm _ b List.mem_cons_self (hn b List.mem_cons_self)
    have h2 : ∀ l : List JAttr, (∀ a ∈ l, ∀ H T, a ≠ .free H T) → l.mapM vecOf = some (l.map gposList) := by
      intro l
      induction l with
      | nil => intro _; rfl
      | cons b l ih =>
        intro hn
        rw [List.mapM_cons, ih fun a ha => hn a (List.mem_cons_of_mem _ ha)]
        cases b with
        | free H T => exact absurd rfl (hn _ List.mem_cons_self H T)
        | lin k q dq => rfl
        | fixed => rfl
    unfold hstackPos
    rw [if_neg hne, h1, h2 l hn]
    simp [List.flatMap_def]
  · intro a ha b hb H T hA hB
    have h2 : l.mapM vecOf = none := by
      clear hb
      induction l with
      | nil => cases ha
      | cons c l ih =>
        rw [List.mapM_cons]
        rcases List.mem_cons.mp ha with rfl | ha
        · rw [hA]; rfl
        · rw [ih ha]
          cases vecOf c <;> rfl
    unfold hstackPos
    rw [if_neg (by rintro rfl; cases ha), hm l b hb hB, h2]
  · rintro rfl
    rfl

/-- The claim: a second robot of the same world can be made with the same generator. -/
def C112_Claim : Prop := ∀ (S : RS) (p : ℕ) (l : FrameRef × ℕ × FrameRef) (b : ℕ) (ch : Forest (FrameRef × ℕ × FrameRef) ℕ) (lim : ℕ) (name : String) (s1 : St),
  IsMatlabRobot S p l b ch → makeRobot S lim l.2.1 name ⟨[], [], []⟩ = .ok () s1 →
    ∃ s2, makeRobot S lim l.2.1 name { s1 with out := [] } = .ok () s2

/-- C112.  A generator is good for one robot only: the joint positions of the first robot are still in its list when the
second is made, which always ends with a `ValueError` (and the warning in the file). -/
theorem C112_reuse_false : ¬ C112_Claim ∧ ∀ {S : RS} {p : ℕ} {l : FrameRef × ℕ × FrameRef} {b : ℕ} {ch : Forest (FrameRef × ℕ × FrameRef) ℕ}
    {p' : ℕ} {l' : FrameRef × ℕ × FrameRef} {b' : ℕ} {ch' : Forest (FrameRef × ℕ × FrameRef) ℕ} {lim : ℕ} {name name' : String} {s1 : St},
    IsMatlabRobot S p l b ch → IsMatlabRobot S p' l' b' ch' → ch ≠ .nil → depth ch + 1 < lim → depth ch' + 1 < lim → S.w.shapes = [] →
    makeRobot S lim l.2.1 name ⟨[], [], []⟩ = .ok () s1 →
    ∃ s2, makeRobot S lim l'.2.1 name' { s1 with out := [] } = .error .valueError s2 ∧ s2.out.getLast? = some .mad := by
  have key : ∀ {S : RS} {p : ℕ} {l : FrameRef × ℕ × FrameRef} {b : ℕ} {ch : Forest (FrameRef × ℕ × FrameRef) ℕ}
    {p' : ℕ} {l' : FrameRef × ℕ × FrameRef} {b' : ℕ} {ch' : Forest (FrameRef × ℕ × FrameRef) ℕ} {lim : ℕ} {name name' : String} {s1 : St},
    IsMatlabRobot S p l b ch → IsMatlabRobot S p' l' b' ch' → ch ≠ .nil → depth ch + 1 < lim → depth ch' + 1 < lim → S.w.shapes = [] →
    makeRobot S lim l.2.1 name ⟨[], [], []⟩ = .ok () s1 →
    ∃ s2, makeRobot S lim l'.2.1 name' { s1 with out := [] } = .error .valueError s2 ∧ s2.out.getLast? = some .mad := by
    intro S p l b ch p' l' b' ch' lim name name' s1 h h' hch hl hl' hs hrun
    obtain ⟨H, T, hr⟩ := h.root
    obtain ⟨H', T', hr'⟩ := h'.root
    obtain ⟨s0, e1, e2⟩ := body_run h hl (by rw [hs]; simp) name ⟨[], [], []⟩
    have hv : s1.vals = .free H T :: ch.links.map fun l => S.jattr l.2.1 := by
      have hmk : makeRobot S lim l.2.1 name ⟨[], [], []⟩ = tryCatch (body S lim l.2.1 name) (fun e => do write .mad; throw e) ⟨[], [], []⟩ := by
        unfold makeRobot; rw [hr]
      rw [hmk] at hrun
      simp only [tryCatch, tryCatchThe, MonadExceptOf.tryCatch, EStateM.tryCatch] at hrun
      rw [hr, List.nil_append] at e2
      have hne : ch.links.map (fun l => S.jattr l.2.1) ≠ [] := by
        cases ch with
        | nil => exact absurd rfl hch
        | cons => simp [Forest.links]
      rw [e1, finish_run e2 hne (by
        intro a ha
        obtain ⟨l'', hl'', rfl⟩ := List.mem_map.mp ha
        exact h.hinges l'' hl'')] at hrun
      simp only [EStateM.Result.ok.injEq] at hrun
      rw [← hrun.2]
      exact e2
    obtain ⟨s3, e3, e4⟩ := body_run h' hl' (by rw [hs]; simp) name' { s1 with out := [] }
    have hne : ch.links.map (fun l => S.jattr l.2.1) ≠ [] := by
      cases ch with
      | nil => exact absurd rfl hch
      | cons => simp [Forest.links]
    have hfin : finish s3 = .error .valueError s3 := by
      unfold finish
      rw [bind_run]
      simp only [get, getThe, MonadStateOf.get, EStateM.get]
      rw [e4]
      simp only [hv, List.cons_append, hr']
      rw [hstackPos_mixed hne (by
        intro a ha
        obtain ⟨l'', hl'', rfl⟩ := List.mem_map.mp ha
        exact h.hinges l'' hl'')]
      rfl
    refine ⟨{ s3 with out := s3.out ++ [.mad] }, ?_, by simp⟩
    unfold makeRobot
    rw [hr']
    simp only [tryCatch, tryCatchThe, MonadExceptOf.tryCatch, EStateM.tryCatch]
    rw [e3, hfin]
    rfl
  refine ⟨fun hc => ?_, key⟩
  obtain ⟨s1, h1, -⟩ := C112_state (exRobot []) (by simp [exTree]) (lim := 9) (by decide) (by simp) rfl "r" []
  obtain ⟨s2, h2⟩ := hc _ _ _ _ _ _ _ s1 (exRobot []) h1
  obtain ⟨s3, h3, -⟩ := key (exRobot []) (exRobot []) (by simp [exTree]) (by decide) (by decide) rfl h1 (name' := "r")
  rw [h2] at h3
  simp at h3

end Arboris
