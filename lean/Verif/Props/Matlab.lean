import Verif.Proofs.Matlab

/-!
# C111: a robot written for Matlab by `MatlabRobotGenerator`, and read back by `convert_mat2py.m`
-/

namespace Arboris
open Graph Build Spec Matlab

lemma pyStr_eq (x : Option String) : pyStr x = x.getD "None" := by cases x <;> rfl

lemma matlab_lookup_of_mem {α β : Type} [BEq α] [LawfulBEq α] : ∀ {m : List (α × β)} {k : α} {v : β}, (m.map Prod.fst).Nodup → (k, v) ∈ m →
    m.lookup k = some v
  | [], _, _, _, h => by simp at h
  | (a, c) :: m, k, v, hn, h => by
    simp only [List.map_cons, List.nodup_cons] at hn
    rw [List.lookup_cons]
    rcases List.mem_cons.mp h with h | h
    · cases h
      simp
    · have : (k == a) = false := by
        have : k ≠ a := by
          intro e
          exact hn.1 (List.mem_map.mpr ⟨_, h, e⟩)
        simpa using this
      rw [this]
      exact matlab_lookup_of_mem hn.2 h

/-- where the file puts a body -/
noncomputable def placeIn (E : List Entry) (x : ℕ) : ℕ × ℕ := ((E.map fun e => (e.body, e.place)).lookup x).getD (0, 0)

lemma placeIn_mem {E : List Entry} (hn : (E.map fun e => e.body).Nodup) {x : ℕ} {q : ℕ × ℕ} (h : (x, q) ∈ E.map fun e => (e.body, e.place)) :
    placeIn E x = q := by
  unfold placeIn
  rw [matlab_lookup_of_mem (by simpa [Function.comp_def] using hn) h]
  rfl

lemma exec_robotFile {S : RS} {p : ℕ} {l : FrameRef × ℕ × FrameRef} {b : ℕ} {ch : Forest (FrameRef × ℕ × FrameRef) ℕ}
    (h : IsMatlabRobot S p l b ch) (name : String) (H : Mat4) (T : Vec6) :
    mat2py (exec (robotFile S p l b ch name H T)) =
      (linksBelow p (.cons l b ch .nil)).map (asCall S p (placeIn (robotE p l b ch))) ∧
    Set.InjOn (placeIn (robotE p l b ch)) {x | x ∈ b :: ch.bodies} := by
  have hn : ((robotE p l b ch).map fun e => e.body).Nodup := by
    rw [robotE_bodies]
    exact (List.nodup_cons.mp h.bodies_nodup).2
  have hp : p ∉ b :: ch.bodies := (List.nodup_cons.mp h.bodies_nodup).1
  have hplace : ∀ e ∈ robotE p l b ch, placeIn (robotE p l b ch) e.body = e.place :=
    fun e he => placeIn_mem hn (List.mem_map.mpr ⟨e, he, rfl⟩)
  -- the file is run
  obtain ⟨e1, e2⟩ := exec_link [] ⟨(0, 0), []⟩ (bdOf S l b)
  obtain ⟨f1, f2⟩ := exec_branch [] (0, 0)
  simp only [List.nil_append, List.length_nil, zero_add] at e1 e2 f1 f2
  obtain ⟨T', h1, -, h3⟩ := (exec_entries S ch).1 b 1 [] ⟨(0, 0), [bdOf S l b]⟩ le_rfl rfl rfl
  simp only [List.length_nil, zero_add, List.nil_append, Nat.reduceAdd] at h1 h3
  have hrun : exec (robotFile S p l b ch name H T) = T' := by
    unfold exec robotFile
    rw [List.foldl_append, List.foldl_append, List.foldl_cons, List.foldl_cons, List.foldl_nil, allShapes_exec]
    change (List.flatMap (itemsOf S) (robotE p l b ch)).foldl execItem [] = T'
    unfold robotE
    rw [List.flatMap_cons, List.foldl_append]
    have : itemsOf S ⟨p, (0, 0), l, b, (1, 1)⟩ = [.branch 1 (0, 0), .link 1 1 (bdOf S l b)] := by simp [itemsOf]
    rw [this, List.foldl_cons, List.foldl_cons, List.foldl_nil, f1, e1, h1]
  have hcalls : mat2py T' = readBd ⟨(0, 0), []⟩ 1 1 (bdOf S l b) :: (firstE ch b 1 2).1.map (callOf S) := by
    rw [h3, e2, f2]
    rfl
  have hkind : ∀ e ∈ robotE p l b ch, readKind (ecode (S.jattr e.link.2.1)) = kindOf (S.jattr e.link.2.1) := by
    intro e he
    apply readKind_ecode
    unfold robotE at he
    rcases List.mem_cons.mp he with rfl | he
    · exact .inr h.root
    · left
      have hm : e.link ∈ ch.links := by
        rw [← linksBelow_links ch b, ← (entries_links ch).1 b 1 2, List.map_map]
        exact List.mem_map.mpr ⟨e, he, rfl⟩
      exact h.hinges _ hm
  constructor
  · rw [hrun, hcalls, ← robotE_links, List.map_map]
    rw [show robotE p l b ch = ⟨p, (0, 0), l, b, (1, 1)⟩ :: (firstE ch b 1 2).1 from rfl, List.map_cons]
    rw [show (⟨p, (0, 0), l, b, (1, 1)⟩ :: (firstE ch b 1 2).1 : List Entry) = robotE p l b ch from rfl]
    congr 1
    · have hp1 := hplace ⟨p, (0, 0), l, b, (1, 1)⟩ List.mem_cons_self
      have hk1 := hkind ⟨p, (0, 0), l, b, (1, 1)⟩ List.mem_cons_self
      simp only at hp1 hk1
      simp only [readBd, bdOf, asCall, pyStr_eq, Function.comp_apply, hp1, hk1, flipMass_flipMass, and_self, if_true]
    · apply List.map_congr_left
      intro e he
      have he' : e ∈ robotE p l b ch := List.mem_cons_of_mem _ he
      have hp1 := hplace e he'
      have hk1 := hkind e he'
      have hpar : (e.parentBody, e.parentPlace) ∈ (robotE p l b ch).map fun e => (e.body, e.place) := by
        simpa [robotE] using (entries_parents ch).1 b 1 1 e he
      have hp2 := placeIn_mem hn hpar
      have hne : e.parentBody ≠ p := by
        rintro e0
        apply hp
        rw [← robotE_bodies p l b ch]
        obtain ⟨e', h1, h2⟩ := List.mem_map.mp hpar
        exact List.mem_map.mpr ⟨e', h1, (congrArg Prod.fst h2).trans e0⟩
      simp only [callOf, asCall, pyStr_eq, Function.comp_apply, hp1, hp2, hk1, flipMass_flipMass, if_neg hne]
  · intro x hx y hy hxy
    simp only [Set.mem_setOf_eq] at hx hy
    rw [← robotE_bodies p l b ch] at hx hy
    obtain ⟨e, he, rfl⟩ := List.mem_map.mp hx
    obtain ⟨e', he', rfl⟩ := List.mem_map.mp hy
    have hpl : ((robotE p l b ch).map fun e => e.place).Nodup := by
      have := mat2py_children_nodup T'
      rw [hcalls] at this
      simpa [robotE, readBd, callOf, Function.comp_def] using this
    rw [hplace e he, hplace e' he'] at hxy
    exact congrArg Entry.body (List.inj_on_of_nodup_map hpl he he' hxy)

/-- C111.  Writing a robot (a free joint at the root, hinges below, in any tree) for Matlab succeeds, and the Python script
that `convert_mat2py.m` makes of the file rebuilds the robot: it makes one `add_link` per joint, in the same (depth first)
order, between the bodies that stand for the joint's own parent and child (distinct bodies stay distinct, the robot hangs
from the ground), with the same class of joint, the same joint name, the same places of the joint on the two bodies and the
same mass matrix. -/
theorem C111_roundtrip {S : RS} {p : ℕ} {l : FrameRef × ℕ × FrameRef} {b : ℕ} {ch : Forest (FrameRef × ℕ × FrameRef) ℕ}
    (h : IsMatlabRobot S p l b ch) (hch : ch ≠ .nil) {lim : ℕ} (hl : depth ch + 1 < lim)
    (hs : ∀ v ∈ S.w.shapes, S.o.bodyOf (S.o.shapeFrame v) ∈ b :: ch.bodies ∧ ¬ isPlane (S.geo v)) (name : String) (out : List Item) :
    ∃ s' new place, makeRobot S lim l.2.1 name ⟨out, [], []⟩ = .ok () s' ∧ s'.out = out ++ new ∧
      Set.InjOn place {x | x ∈ b :: ch.bodies} ∧
      mat2py (exec new) = (linksBelow p (.cons l b ch .nil)).map (asCall S p place) := by
  obtain ⟨H, T, hr⟩ := h.root
  obtain ⟨s', h1, h2⟩ := makeRobot_run h hch hl hs hr name out
  obtain ⟨h3, h4⟩ := exec_robotFile h name H T
  exact ⟨s', _, _, h1, h2, h4, h3⟩

lemma linksBelow_order (F : Forest (FrameRef × ℕ × FrameRef) ℕ) : ∀ p pre x post, linksBelow p F = pre ++ x :: post →
    x.1 = p ∨ x.1 ∈ pre.map fun y => y.2.2 := by
  induction F with
  | nil => intro p pre x post h; simp [linksBelow] at h
  | cons l b ch sib ih1 ih2 =>
    intro p pre x post h
    rw [linksBelow] at h
    cases pre with
    | nil =>
      simp only [List.cons_append, List.nil_append, List.cons.injEq] at h
      exact .inl (by rw [← h.1])
    | cons a pre =>
      simp only [List.cons_append, List.cons.injEq] at h
      obtain ⟨rfl, h⟩ := h
      rw [List.append_eq_append_iff] at h
      rcases h with ⟨m, hm1, hm2⟩ | ⟨m, hm1, hm2⟩
      · subst hm1
        rcases ih2 p m x post hm2 with h | h
        · exact .inl h
        · right
          simp only [List.map_cons, List.map_append, List.mem_cons, List.mem_append]
          exact .inr (.inr h)
      · cases m with
        | nil =>
          simp only [List.nil_append] at hm2
          rcases ih2 p [] x post hm2.symm with h | h
          · exact .inl h
          · simp at h
        | cons y m =>
          simp only [List.cons_append, List.cons.injEq] at hm2
          obtain ⟨rfl, hm2⟩ := hm2
          rcases ih1 b pre x m hm1 with h | h
          · right; simp [h]
          · right
            simp only [List.map_cons, List.mem_cons]
            exact .inr h

/-- C111.  In the script, a body is made before it is used as a parent. -/
theorem C111_order {S : RS} {p : ℕ} {F : Forest (FrameRef × ℕ × FrameRef) ℕ} {place : ℕ → ℕ × ℕ} {pre post : List Call} {c : Call} {q : ℕ × ℕ}
    (h : (linksBelow p F).map (asCall S p place) = pre ++ c :: post) (hq : c.parent = some q) : q ∈ pre.map Call.child := by
  obtain ⟨pre', rest, h1, rfl, h2⟩ := List.map_eq_append_iff.mp h
  obtain ⟨x, post', rfl, rfl, rfl⟩ := List.map_eq_cons_iff.mp h2
  simp only [asCall] at hq
  split_ifs at hq with hx
  rcases linksBelow_order F p pre' x post' h1 with h | h
  · exact absurd h hx
  · obtain ⟨y, hy, e⟩ := List.mem_map.mp h
    rw [List.map_map]
    refine List.mem_map.mpr ⟨y, hy, ?_⟩
    simp only [Option.some.injEq] at hq
    simp only [Function.comp_apply, asCall, e, hq]

/-! ### a concrete robot -/

/-- the ground (0), a trunk (1) on a free joint (0), two arms (2, 3) on hinges (1, 2) along z and x, and a hand (4) on the
first arm, by a hinge (3) along y -/
noncomputable def exWorld : World where
  ground := 0
  body := fun b => match b with
    | 0 => ⟨none, [0]⟩ | 1 => ⟨some 0, [1, 2]⟩ | 2 => ⟨some 1, [3]⟩ | 3 => ⟨some 2, []⟩ | 4 => ⟨some 3, []⟩ | _ => {}
  joint := fun j => match j with
    | 0 => ⟨some (.body 0), some (.body 1), none⟩ | 1 => ⟨some (.body 1), some (.body 2), none⟩
    | 2 => ⟨some (.body 1), some (.body 3), none⟩ | 3 => ⟨some (.body 2), some (.body 4), none⟩ | _ => {}
  subframes := []
  shapes := []
  constraints := []
  controllers := []
  ndof := 0

/-- see `exWorld` -/
noncomputable def exRS : RS where
  o := ⟨fun _ => 0, fun _ => .body 4, fun _ => [], fun _ => 0⟩
  w := exWorld
  nb := 5
  nj := 4
  ns := 0
  nsh := 0
  mass := fun _ => 1
  jattr := fun j => match j with
    | 0 => .free 1 (fun i => (i.val : ℝ)) | 1 => .lin .Rz (fun _ => 1) (fun _ => 2) | 2 => .lin .Rx (fun _ => 3) (fun _ => 4)
    | 3 => .lin .Ry (fun _ => 5) (fun _ => 6) | _ => .fixed
  bpose := fun _ => 1
  geo := fun _ => .sphere 1
  bname := fun b => match b with | 0 => some "ground" | 1 => some "trunk" | 2 => some "left" | 3 => some "right" | 4 => some "hand" | _ => none
  jname := fun _ => none
  fname := fun _ => none
  shname := fun _ => none

/-- the tree below the trunk -/
def exTree : Forest (FrameRef × ℕ × FrameRef) ℕ :=
  .cons (.body 1, 1, .body 2) 2 (.cons (.body 2, 3, .body 4) 4 .nil .nil) (.cons (.body 1, 2, .body 3) 3 .nil .nil)

lemma exRobot (sh : List ℕ) : IsMatlabRobot { exRS with w := { exWorld with shapes := sh } } 0 (.body 0, 0, .body 1) 1 exTree where
  unfolds := .cons (f0 := .body 0) (f1 := .body 1) rfl rfl rfl rfl
    (.cons (f0 := .body 1) (f1 := .body 2) rfl rfl rfl rfl
      (.cons (f0 := .body 2) (f1 := .body 4) rfl rfl rfl rfl (.nil _) (.nil _))
      (.cons (f0 := .body 1) (f1 := .body 3) rfl rfl rfl rfl (.nil _) (.nil _)))
    (.nil _)
  bodies_nodup := by decide
  root := ⟨_, _, rfl⟩
  hinges := by
    intro l hl
    simp [exTree, Forest.links] at hl
    rcases hl with rfl | rfl | rfl <;> rfl

/-- C111 is about, for instance, this robot, with a shape on its hand -/
example (name : String) : ∃ s' new place, makeRobot { exRS with w := { exWorld with shapes := [7] } } 9 0 name ⟨[], [], []⟩ = .ok () s' ∧ s'.out = [] ++ new ∧
    Set.InjOn place {x | x ∈ 1 :: exTree.bodies} ∧ mat2py (exec new) = (linksBelow 0 (.cons (.body 0, 0, .body 1) 1 exTree .nil)).map
      (asCall { exRS with w := { exWorld with shapes := [7] } } 0 place) :=
  C111_roundtrip (exRobot [7]) (by simp [exTree]) (by decide) (by
    intro v hv
    exact ⟨by simp [exRS, exTree, Forest.bodies, Objs.bodyOf], by simp [exRS, isPlane]⟩) name []

/-! ### a robot of a single body -/

/-- The claim: a robot (a free root, hinges) with no shape can be written. -/
def C111_Claim : Prop := ∀ (S : RS) (p : ℕ) (l : FrameRef × ℕ × FrameRef) (b : ℕ) (ch : Forest (FrameRef × ℕ × FrameRef) ℕ) (lim : ℕ) (name : String),
  IsMatlabRobot S p l b ch → depth ch + 1 < lim → S.w.shapes = [] → ∃ s', makeRobot S lim l.2.1 name ⟨[], [], []⟩ = .ok () s'

/-- C111 is false of a robot made of a single free body, whatever it is: `hstack` of no joint positions is a `ValueError`. -/
theorem C111_alone_false : ¬ C111_Claim ∧ ∀ (S : RS) (p : ℕ) (l : FrameRef × ℕ × FrameRef) (b lim : ℕ) (name : String),
    IsMatlabRobot S p l b .nil → 1 < lim → S.w.shapes = [] →
    ∃ s', makeRobot S lim l.2.1 name ⟨[], [], []⟩ = .error .valueError s' ∧ s'.out.getLast? = some .mad := by
  have key : ∀ (S : RS) (p : ℕ) (l : FrameRef × ℕ × FrameRef) (b lim : ℕ) (name : String),
    IsMatlabRobot S p l b .nil → 1 < lim → S.w.shapes = [] →
    ∃ s', makeRobot S lim l.2.1 name ⟨[], [], []⟩ = .error .valueError s' ∧ s'.out.getLast? = some .mad := by
    intro S p l b lim name h hl hs
    obtain ⟨H, T, hr⟩ := h.root
    obtain ⟨br, ht⟩ := traverse_robot h (lim := lim) (by simpa [depth] using hl) ⟨[.tree name], [], []⟩
    have hsh := addShapes_run (S := S) (s := appendSt S (robotE p l b .nil) ⟨[.tree name], [], []⟩) (by rw [hs]; simp)
    obtain ⟨s1, hb⟩ : ∃ s1, body S lim l.2.1 name ⟨[], [], []⟩ = .error .valueError s1 := by
      unfold body
      rw [bind_run]
      simp only [write, modify, modifyGet, MonadStateOf.modifyGet, EStateM.modifyGet, List.nil_append]
      rw [bind_run, addBranch_run] at ht ⊢
      simp only at ht ⊢
      rw [bind_run, ht]
      simp only
      rw [bind_run, hsh]
      simp only
      unfold finish
      rw [bind_run]
      simp only [get, getThe, MonadStateOf.get, EStateM.get]
      simp only [appendSt, robotE_vals, hr, Forest.links, List.map_nil, List.nil_append, hstackPos]
      exact ⟨_, rfl⟩
    refine ⟨{ s1 with out := s1.out ++ [.mad] }, ?_, by simp⟩
    unfold makeRobot
    rw [hr]
    change EStateM.tryCatch _ _ _ = _
    unfold EStateM.tryCatch
    rw [hb]
    rfl
  refine ⟨fun hc => ?_, key⟩
  let S : RS := { exRS with w := { exWorld with body := fun b => match b with | 0 => ⟨none, [0]⟩ | 1 => ⟨some 0, []⟩ | _ => {} } }
  have hR : IsMatlabRobot S 0 (.body 0, 0, .body 1) 1 .nil :=
    ⟨.cons (f0 := .body 0) (f1 := .body 1) rfl rfl rfl rfl (.nil _) (.nil _), by decide, ⟨_, _, rfl⟩, by simp [Forest.links]⟩
  obtain ⟨s1, h1⟩ := hc S 0 _ 1 .nil 9 "r" hR (by decide) rfl
  obtain ⟨s2, h2, -⟩ := key S 0 _ 1 9 "r" hR (by decide) rfl
  rw [h1] at h2
  simp at h2

/-! ### files that went wrong -/

/-- the method writes no warning -/
def Quiet {α : Type} (x : Gen α) : Prop := ∀ s, match x s with
  | .ok _ s' => ∃ new, s'.out = s.out ++ new ∧ Item.mad ∉ new
  | .error _ s' => ∃ new, s'.out = s.out ++ new ∧ Item.mad ∉ new

lemma Quiet.bind {α β : Type} {x : Gen α} {f : α → Gen β} (hx : Quiet x) (hf : ∀ a, Quiet (f a)) : Quiet (x >>= f) := by
  intro s
  rw [bind_run]
  have h := hx s
  rcases hxs : x s with ⟨a, s1⟩ | ⟨e, s1⟩
  · rw [hxs] at h
    obtain ⟨n1, h1, h2⟩ := h
    have h' := hf a s1
    simp only
    rcases hfs : f a s1 with ⟨c, s2⟩ | ⟨e, s2⟩
    all_goals
      rw [hfs] at h'
      obtain ⟨n2, h3, h4⟩ := h'
      exact ⟨n1 ++ n2, by rw [h3, h1, List.append_assoc], by simp [h2, h4]⟩
  · rw [hxs] at h
    exact h

lemma Quiet.throw {α : Type} (e : PyErr) : Quiet (MonadExcept.throw e : Gen α) := fun s => ⟨[], by simp⟩
lemma Quiet.pure {α : Type} (a : α) : Quiet (Pure.pure a : Gen α) := fun s => ⟨[], by simp⟩
lemma Quiet.get : Quiet (MonadState.get : Gen St) := fun s => ⟨[], by simp⟩
lemma Quiet.write {x : Item} (h : x ≠ .mad) : Quiet (Matlab.write x) := fun s => ⟨[x], rfl, by simpa using h.symm⟩
lemma Quiet.modify {f : St → St} (h : ∀ s, (f s).out = s.out) : Quiet (_root_.modify f : Gen Unit) := fun s => ⟨[], by simpa using h s⟩

lemma Quiet.addLink (S : RS) (j br bd : ℕ) : Quiet (Matlab.addLink S j br bd) := by
  unfold Matlab.addLink
  split
  · refine .bind (.modify fun _ => rfl) fun _ => ?_
    split
    · exact .throw _
    · exact .write (by simp)
  · exact .throw _

lemma Quiet.kids (S : RS) (j : ℕ) : Quiet (Matlab.kids S j) := by
  unfold Matlab.kids
  split
  · exact .throw _
  · exact .pure _

lemma Quiet.foldlM {α β : Type} {f : β → α → Gen β} (h : ∀ b a, Quiet (f b a)) : ∀ (l : List α) (b : β), Quiet (l.foldlM f b)
  | [], b => .pure b
  | a :: l, b => by
    rw [List.foldlM_cons]
    exact .bind (h b a) fun c => Quiet.foldlM h l c

lemma Quiet.traverse (S : RS) : ∀ k js br bd, Quiet (Matlab.traverse S k js br bd)
  | 0, _, _, _ => .throw _
  | k + 1, [], br, _ => .pure br
  | k + 1, j :: js, br, bd => by
    unfold Matlab.traverse
    refine .bind (.addLink S j br bd) fun _ => .bind (.modify fun _ => rfl) fun _ => .bind (.kids S j) fun ch =>
      .bind (Quiet.traverse S k ch br (bd + 1)) fun br1 => .foldlM (fun br j => ?_) js br1
    exact .bind (.write (by simp)) fun _ => .bind (.addLink S j (br + 1) 1) fun _ => .bind (.modify fun _ => rfl) fun _ =>
      .bind (.kids S j) fun ch => Quiet.traverse S k ch (br + 1) 2

lemma Quiet.addShapesLoop (S : RS) : ∀ vs d old, Quiet (Matlab.addShapesLoop S vs d old)
  | [], _, _ => .pure _
  | v :: vs, d, old => by
    unfold Matlab.addShapesLoop
    refine .bind .get fun s => ?_
    split
    · exact .throw _
    · split
      · exact .throw _
      · exact .bind (.write (by simp)) fun _ => Quiet.addShapesLoop S vs _ _

lemma Quiet.body (S : RS) (lim root : ℕ) (name : String) : Quiet (Matlab.body S lim root name) := by
  unfold Matlab.body
  refine .bind (.write (by simp)) fun _ => .bind (.write (by simp)) fun _ => .bind (.traverse S _ _ _ _) fun _ => .bind ?_ fun _ => ?_
  · unfold Matlab.addShapes
    refine .bind (.addShapesLoop S _ _ _) fun _ => ?_
    split
    · exact .write (by simp)
    · exact .pure _
  · unfold Matlab.finish
    refine .bind .get fun s => ?_
    split
    · exact .throw _
    · split
      · exact .throw _
      · exact .write (by simp)
      · exact .throw _

/-- C111.  Whatever the world and the generator's past: if `make_robot` returns, what it wrote has no warning; if it raises,
either the root joint is not free and nothing was written, or the file ends with the warning not to use it. -/
theorem C111_marked (S : RS) (lim root : ℕ) (name : String) (s : St) :
    match makeRobot S lim root name s with
    | .ok _ s' => ∃ new, s'.out = s.out ++ new ∧ Item.mad ∉ new
    | .error e s' => ((∀ H T, S.jattr root ≠ .free H T) ∧ e = .runtimeError ∧ s' = s) ∨ ∃ new, s'.out = s.out ++ new ++ [.mad] ∧ Item.mad ∉ new := by
  unfold makeRobot
  have h := Quiet.body S lim root name s
  cases hr : S.jattr root with
  | free H T =>
    simp only [tryCatch, tryCatchThe, MonadExceptOf.tryCatch, EStateM.tryCatch]
    rcases hb : body S lim root name s with ⟨a, s1⟩ | ⟨e, s1⟩
    · rw [hb] at h
      exact h
    · rw [hb] at h
      obtain ⟨new, h1, h2⟩ := h
      right
      refine ⟨new, ?_, h2⟩
      change s1.out ++ [.mad] = _
      rw [h1]
  | lin k q dq => exact .inl ⟨by simp, rfl, rfl⟩
  | fixed => exact .inl ⟨by simp, rfl, rfl⟩

end Arboris
