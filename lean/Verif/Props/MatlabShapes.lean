import Verif.Props.MatlabState

/-!
# C113: the shapes of a robot written for Matlab
-/

namespace Arboris
open Graph Build Spec Matlab

/-- what Matlab should be told of a shape: a point is a small sphere, sizes are full lengths -/
noncomputable def Spec.shapeAs : ShapeGeo → String × List ℝ
  | .point => ("sphere", [0.01])
  | .sphere r => ("sphere", [r])
  | .box h => ("parallelepiped", [2 * h 0, 2 * h 1, 2 * h 2])
  | .cylinder l r => ("cylinder", [r, l])
  | .plane _ => ("", [])

/-- the body a shape is on -/
def Spec.onBody (S : RS) (v : ℕ) : ℕ := S.o.bodyOf (S.o.shapeFrame v)

/-- the blocks of the file about shapes -/
def Spec.isShape : Item → Bool
  | .shape _ _ _ _ => true
  | _ => false

/-- What the file should say of the shapes: each is on the place of its own body, with its own class, size and pose on the
body, and the shapes of a body are numbered 1, 2, … -/
noncomputable def Spec.shapesAt (S : RS) (place : ℕ → ℕ × ℕ) : List Item :=
  S.w.shapes.mapIdx fun i v => .shape (place (onBody S v)).1 (place (onBody S v)).2
    ((S.w.shapes.take (i + 1)).countP fun u => onBody S u = onBody S v)
    ⟨(shapeAs (S.geo v)).1, (shapeAs (S.geo v)).2, S.bposeOf (S.o.shapeFrame v)⟩

lemma shText_as {g : ShapeGeo} (h : ¬ isPlane g) : shText g = shapeAs g := by
  cases g with
  | box h => simp [shText, shapeText, shapeAs, mul_comm]
  | plane c => exact absurd trivial h
  | _ => rfl

lemma shapeItems_eq (S : RS) (bmap : List (Option String × (ℕ × ℕ))) : ∀ vs pre, shapeItems S bmap pre vs =
    vs.mapIdx fun i v => .shape ((bmap.lookup (onName S v)).getD (0, 0)).1 ((bmap.lookup (onName S v)).getD (0, 0)).2
      ((pre ++ vs.take (i + 1)).countP (fun u => onName S u = onName S v))
      ⟨(shText (S.geo v)).1, (shText (S.geo v)).2, S.bposeOf (S.o.shapeFrame v)⟩
  | [], _ => rfl
  | v :: vs, pre => by
    rw [shapeItems, shapeItems_eq S bmap vs (pre ++ [v]), List.mapIdx_cons]
    congr 1
    · simp [List.countP_append]
    · simp

lemma robot_bmap {S : RS} {p : ℕ} {l : FrameRef × ℕ × FrameRef} {b : ℕ} {ch : Forest (FrameRef × ℕ × FrameRef) ℕ}
    (h : IsMatlabRobot S p l b ch) (hn : ((b :: ch.bodies).map S.bname).Nodup) {x : ℕ} (hx : x ∈ b :: ch.bodies) :
    ((((robotE p l b ch).map fun e => (S.bname e.body, e.place)).reverse).lookup (S.bname x)) = some (placeIn (robotE p l b ch) x) := by
  have hbn : ((robotE p l b ch).map fun e => e.body).Nodup := by
    rw [robotE_bodies]
    exact (List.nodup_cons.mp h.bodies_nodup).2
  rw [← robotE_bodies p l b ch] at hx
  obtain ⟨e, he, rfl⟩ := List.mem_map.mp hx
  rw [placeIn_mem hbn (List.mem_map.mpr ⟨e, he, rfl⟩)]
  apply matlab_lookup_of_mem
  · rw [List.map_reverse, List.nodup_reverse, List.map_map]
    rw [← robotE_bodies p l b ch, List.map_map] at hn
    exact hn
  · rw [List.mem_reverse]
    exact List.mem_map.mpr ⟨e, he, rfl⟩

lemma isShape_items (S : RS) (E : List Entry) : (E.flatMap (itemsOf S)).filter isShape = [] := by
  rw [List.filter_eq_nil_iff]
  intro x hx
  obtain ⟨e, -, he⟩ := List.mem_flatMap.mp hx
  unfold itemsOf at he
  split_ifs at he <;> simp at he <;> rcases he with rfl | rfl <;> simp [isShape]

/-- C113, when no two bodies of the robot have the same name and no shape is a plane.  The file puts each shape on the place of
its own body (the `place` of C111), with its own class, size and pose, the shapes of a body being numbered from 1; a world
without shapes gets one small sphere on the first body. -/
theorem C113_shapes_partial {S : RS} {p : ℕ} {l : FrameRef × ℕ × FrameRef} {b : ℕ} {ch : Forest (FrameRef × ℕ × FrameRef) ℕ}
    (h : IsMatlabRobot S p l b ch) (hch : ch ≠ .nil) {lim : ℕ} (hl : depth ch + 1 < lim)
    (hs : ∀ v ∈ S.w.shapes, onBody S v ∈ b :: ch.bodies ∧ ¬ isPlane (S.geo v)) (hn : ((b :: ch.bodies).map S.bname).Nodup) (name : String)
    (out : List Item) :
    ∃ s' new place, makeRobot S lim l.2.1 name ⟨out, [], []⟩ = .ok () s' ∧ s'.out = out ++ new ∧
      Set.InjOn place {x | x ∈ b :: ch.bodies} ∧ mat2py (exec new) = (linksBelow p (.cons l b ch .nil)).map (asCall S p place) ∧
      new.filter isShape = if S.w.shapes = [] then [.shape 1 1 1 ⟨"sphere", [0.01], 1⟩] else shapesAt S place := by
  obtain ⟨H, T, hr⟩ := h.root
  obtain ⟨s', h1, h2⟩ := makeRobot_run h hch hl hs hr name out
  obtain ⟨h3, h4⟩ := exec_robotFile h name H T
  refine ⟨s', _, _, h1, h2, h4, h3, ?_⟩
  rw [robotFile, List.filter_append, List.filter_append, List.filter_cons_of_neg (by simp [isShape]), isShape_items, List.nil_append]
  rw [show [Item.state H (.vec ((ch.links.map fun l => S.jattr l.2.1).flatMap gposList))
      (((List.ofFn T).drop 3).take 3 ++ (List.ofFn T).take 3 ++ (ch.links.map fun l => S.jattr l.2.1).flatMap gvelList)].filter isShape = [] from rfl,
    List.append_nil]
  unfold allShapes
  split_ifs with hsh
  · rfl
  · rw [shapeItems_eq, List.filter_eq_self.mpr]
    · unfold shapesAt
      apply List.ext_getElem
      · simp
      · intro i hi1 hi2
        simp only [List.getElem_mapIdx, List.nil_append]
        simp only [List.length_mapIdx] at hi1
        have hv : S.w.shapes[i] ∈ S.w.shapes := List.getElem_mem hi1
        have hlk := robot_bmap h hn (hs _ hv).1
        have hcnt : (S.w.shapes.take (i + 1)).countP (fun u => onName S u = onName S S.w.shapes[i]) =
            (S.w.shapes.take (i + 1)).countP (fun u => onBody S u = onBody S S.w.shapes[i]) := by
          apply List.countP_congr
          intro u hu
          have hu' := List.mem_of_mem_take hu
          simp only [decide_eq_true_eq]
          constructor
          · exact fun e => List.inj_on_of_nodup_map hn (hs _ hu').1 (hs _ hv).1 e
          · intro e
            unfold onName
            unfold onBody at e
            rw [e]
        unfold onName at hcnt ⊢
        unfold onBody at hlk
        rw [hlk, hcnt, shText_as (hs _ hv).2]
        rfl
    · intro x hx
      obtain ⟨i, hi, rfl⟩ := List.getElem_of_mem hx
      simp [isShape]

/-- C113 is about, for instance, the robot of C111 with two shapes on its hand -/
example : ∃ (s' : St) (new : List Item) (place : ℕ → ℕ × ℕ), makeRobot { exRS with w := { exWorld with shapes := [7, 8] } } 9 0 "r" ⟨[], [], []⟩ = .ok () s' ∧ s'.out = [] ++ new ∧
    new.filter isShape = [.shape (place 4).1 (place 4).2 1 ⟨"sphere", [1], 1⟩, .shape (place 4).1 (place 4).2 2 ⟨"sphere", [1], 1⟩] := by
  obtain ⟨s', new, place, h1, h2, -, -, h5⟩ := C113_shapes_partial (exRobot [7, 8]) (by simp [exTree]) (lim := 9) (by decide) (by
    intro v hv
    exact ⟨by simp [exRS, exTree, Forest.bodies, Objs.bodyOf, onBody], by simp [exRS, isPlane]⟩) (by simp [exRS, exTree, Forest.bodies]) "r" []
  refine ⟨s', new, place, h1, h2, ?_⟩
  rw [h5]
  simp [shapesAt, exRS, onBody, Objs.bodyOf, shapeAs, RS.bposeOf]

lemma transl_aux : (mkH 1 ![0, 0, 1] : Mat4) 2 3 = 1 := rfl

/-- The claim without the restriction on names -/
def C113_Claim : Prop := ∀ (S : RS) (p : ℕ) (l : FrameRef × ℕ × FrameRef) (b : ℕ) (ch : Forest (FrameRef × ℕ × FrameRef) ℕ) (lim : ℕ) (name : String),
  IsMatlabRobot S p l b ch → ch ≠ .nil → depth ch + 1 < lim → S.w.shapes ≠ [] → (∀ v ∈ S.w.shapes, onBody S v ∈ b :: ch.bodies ∧ ¬ isPlane (S.geo v)) →
  ∃ s' place, makeRobot S lim l.2.1 name ⟨[], [], []⟩ = .ok () s' ∧
    mat2py (exec s'.out) = (linksBelow p (.cons l b ch .nil)).map (asCall S p place) ∧ s'.out.filter isShape = shapesAt S place

/-- the robot of C111, with unnamed bodies and a shape on its hand -/
noncomputable def exNameless : RS := { exRS with w := { exWorld with shapes := [7] }, bname := fun _ => none }

lemma exNameless_robot : IsMatlabRobot exNameless 0 (.body 0, 0, .body 1) 1 exTree where
  unfolds := .cons (f0 := .body 0) (f1 := .body 1) rfl rfl rfl rfl
    (.cons (f0 := .body 1) (f1 := .body 2) rfl rfl rfl rfl
      (.cons (f0 := .body 2) (f1 := .body 4) rfl rfl rfl rfl (.nil _) (.nil _))
      (.cons (f0 := .body 1) (f1 := .body 3) rfl rfl rfl rfl (.nil _) (.nil _)))
    (.nil _)
  bodies_nodup := by decide
  root := ⟨_, _, rfl⟩
  hinges := by
    intro l hl
    simp [exTree, Forest.links] at hl
    rcases hl with rfl | rfl | rfl <;> rfl

/-- C113 is false of bodies without names (those `MatlabConverter` makes have none): the shape of the hand goes to the right
arm, the last body written. -/
theorem C113_name_false : ¬ C113_Claim := by
  intro hc
  have hs : ∀ v ∈ exNameless.w.shapes, onBody exNameless v ∈ 1 :: exTree.bodies ∧ ¬ isPlane (exNameless.geo v) := by
    intro v hv
    exact ⟨by simp [exNameless, exRS, exTree, Forest.bodies, Objs.bodyOf, onBody], by simp [exNameless, exRS, isPlane]⟩
  obtain ⟨s', place, h1, h2, h3⟩ := hc exNameless 0 _ 1 exTree 9 "r" exNameless_robot (by simp [exTree]) (by decide) (by simp [exNameless]) hs
  obtain ⟨s2, k1, k2⟩ := makeRobot_run exNameless_robot (by simp [exTree]) (lim := 9) (by decide) hs rfl "r" []
  rw [h1] at k1
  simp only [EStateM.Result.ok.injEq, true_and] at k1
  subst k1
  rw [List.nil_append] at k2
  have k3 := (exec_robotFile exNameless_robot "r" 1 (fun i => (i.val : ℝ))).1
  rw [← k2, h2] at k3
  have hp : place 4 = (1, 3) := by
    have := congrArg (fun L => (L.map Call.child)[2]?) k3
    simp [linksBelow, exTree, asCall] at this
    rw [this]
    rfl
  rw [k2] at h3
  have h4 := congrArg List.head? h3
  rw [robotFile, List.filter_append, List.filter_append, List.filter_cons_of_neg (by simp [isShape]), isShape_items, List.nil_append] at h4
  have hsh : exNameless.w.shapes = [7] := rfl
  have hb7 : onBody exNameless 7 = 4 := rfl
  simp only [allShapes, hsh, shapesAt, List.mapIdx_cons, List.mapIdx_nil, hb7, hp, shapeItems, onName] at h4
  simp [isShape, exNameless, robotE, exTree, firstE, restE] at h4

/-- The claim without the restriction on planes: one block per shape, and no block for a plane (that Matlab does not know) -/
def C113_PlaneClaim : Prop := ∀ (S : RS) (p : ℕ) (l : FrameRef × ℕ × FrameRef) (b : ℕ) (ch : Forest (FrameRef × ℕ × FrameRef) ℕ) (lim : ℕ) (name : String),
  IsMatlabRobot S p l b ch → ch ≠ .nil → depth ch + 1 < lim → S.w.shapes ≠ [] → (∀ v ∈ S.w.shapes, onBody S v ∈ b :: ch.bodies) →
  ((b :: ch.bodies).map S.bname).Nodup →
  ∀ s', makeRobot S lim l.2.1 name ⟨[], [], []⟩ = .ok () s' → ∀ br bd n sh, Item.shape br bd n sh ∈ s'.out →
    ∃ v ∈ S.w.shapes, ¬ isPlane (S.geo v) ∧ (sh.type, sh.dims) = shapeAs (S.geo v) ∧ sh.H = S.bposeOf (S.o.shapeFrame v)

/-- the robot of C111 with a sphere on its hand and a plane at another place of the hand -/
noncomputable def exPlane : RS := { exRS with w := { exWorld with shapes := [7, 8] }, ns := 1, geo := fun v => if v = 8 then .plane ![0, 0, 1, 0] else .sphere 1, bpose := fun _ => mkH 1 ![0, 0, 1], o := ⟨fun _ => 4, fun v => if v = 8 then .sub 0 else .body 4, fun _ => [], fun _ => 0⟩ }

lemma exPlane_robot : IsMatlabRobot exPlane 0 (.body 0, 0, .body 1) 1 exTree where
  unfolds := .cons (f0 := .body 0) (f1 := .body 1) rfl rfl rfl rfl
    (.cons (f0 := .body 1) (f1 := .body 2) rfl rfl rfl rfl
      (.cons (f0 := .body 2) (f1 := .body 4) rfl rfl rfl rfl (.nil _) (.nil _))
      (.cons (f0 := .body 1) (f1 := .body 3) rfl rfl rfl rfl (.nil _) (.nil _)))
    (.nil _)
  bodies_nodup := by decide
  root := ⟨_, _, rfl⟩
  hinges := by
    intro l hl
    simp [exTree, Forest.links] at hl
    rcases hl with rfl | rfl | rfl <;> rfl

/-- C113 is false of planes: a plane is written with the class and the size of the shape before it. -/
theorem C113_plane_false : ¬ C113_PlaneClaim := by
  intro hc
  obtain ⟨br, ht⟩ := traverse_robot exPlane_robot (lim := 9) (by decide) ⟨[.tree "r"], [], []⟩
  have hne : (exTree.links.map fun l => exPlane.jattr l.2.1) ≠ [] := by simp [exTree, Forest.links]
  have hloop : ∃ old, addShapes exPlane (appendSt exPlane (robotE 0 (.body 0, 0, .body 1) 1 exTree) ⟨[.tree "r"], [], []⟩) =
      .ok () { appendSt exPlane (robotE 0 (.body 0, 0, .body 1) 1 exTree) ⟨[.tree "r"], [], []⟩ with
        out := old ++ [.shape 1 3 2 ⟨"sphere", [1], mkH 1 ![0, 0, 1]⟩] } := ⟨_, by
    unfold addShapes
    have e : exPlane.w.shapes = [7, 8] := rfl
    have n7 : exPlane.bname (exPlane.o.bodyOf (exPlane.o.shapeFrame 7)) = some "hand" := rfl
    have n8 : exPlane.bname (exPlane.o.bodyOf (exPlane.o.shapeFrame 8)) = some "hand" := rfl
    have g7 : exPlane.geo 7 = .sphere 1 := rfl
    have g8 : exPlane.geo 8 = .plane ![0, 0, 1, 0] := rfl
    have p8 : exPlane.bposeOf (exPlane.o.shapeFrame 8) = mkH 1 ![0, 0, 1] := rfl
    have hk : ((robotE 0 (.body 0, 0, .body 1) 1 exTree).map fun e => (exPlane.bname e.body, e.place)).reverse.lookup (some "hand") = some (1, 3) := by
      simp [robotE, exTree, firstE, restE, exPlane, exRS]
      rfl
    rw [bind_run, e]
    unfold addShapesLoop
    rw [bind_run]
    simp only [get, getThe, MonadStateOf.get, EStateM.get]
    simp only [appendSt, List.append_nil, n7, hk, g7, shapeText]
    rw [bind_run]
    simp only [write, modify, modifyGet, MonadStateOf.modifyGet, EStateM.modifyGet]
    unfold addShapesLoop
    rw [bind_run]
    simp only [get, getThe, MonadStateOf.get, EStateM.get]
    simp only [n8, hk, g8, shapeText]
    rw [bind_run]
    simp only [write, modify, modifyGet, MonadStateOf.modifyGet, EStateM.modifyGet, addShapesLoop, p8]
    rfl⟩
  obtain ⟨old, hsh⟩ := hloop
  have hfin := finish_run (s := { appendSt exPlane (robotE 0 (.body 0, 0, .body 1) 1 exTree) ⟨[.tree "r"], [], []⟩ with
      out := old ++ [.shape 1 3 2 ⟨"sphere", [1], mkH 1 ![0, 0, 1]⟩] }) (H := 1) (T := fun i => (i.val : ℝ))
    (l := exTree.links.map fun l => exPlane.jattr l.2.1) (by simp only [appendSt, robotE_vals, List.nil_append]; rfl) hne (by
      intro a ha
      obtain ⟨l', hl', rfl⟩ := List.mem_map.mp ha
      exact exPlane_robot.hinges l' hl')
  have hb : ∃ s', body exPlane 9 0 "r" ⟨[], [], []⟩ = .ok () s' ∧ Item.shape 1 3 2 ⟨"sphere", [1], mkH 1 ![0, 0, 1]⟩ ∈ s'.out := by
    have hbf : body exPlane 9 0 "r" ⟨[], [], []⟩ = finish { appendSt exPlane (robotE 0 (.body 0, 0, .body 1) 1 exTree) ⟨[.tree "r"], [], []⟩ with
        out := old ++ [.shape 1 3 2 ⟨"sphere", [1], mkH 1 ![0, 0, 1]⟩] } := by
      unfold body
      rw [bind_run]
      simp only [write, modify, modifyGet, MonadStateOf.modifyGet, EStateM.modifyGet, List.nil_append]
      rw [bind_run, addBranch_run] at ht ⊢
      simp only at ht ⊢
      rw [bind_run, ht]
      simp only
      rw [bind_run, hsh]
    exact ⟨_, hbf.trans hfin, by simp⟩
  obtain ⟨s', h1, h2⟩ := hb
  have hmk : makeRobot exPlane 9 0 "r" ⟨[], [], []⟩ = .ok () s' := by
    unfold makeRobot
    have : exPlane.jattr 0 = .free 1 (fun i => (i.val : ℝ)) := rfl
    rw [this]
    simp only [tryCatch, tryCatchThe, MonadExceptOf.tryCatch, EStateM.tryCatch]
    rw [h1]
  obtain ⟨v, hv, k1, k2, k3⟩ := hc exPlane 0 (.body 0, 0, .body 1) 1 exTree 9 "r" exPlane_robot (by simp [exTree]) (by decide) (by simp [exPlane])
    (by
      intro v hv
      simp [exPlane] at hv
      rcases hv with rfl | rfl <;> simp [exPlane, onBody, exTree, Forest.bodies, Objs.bodyOf])
    (by simp [exPlane, exRS, exTree, Forest.bodies]) s' hmk 1 3 2 _ h2
  simp [exPlane] at hv
  rcases hv with rfl | rfl
  · have : exPlane.bposeOf (exPlane.o.shapeFrame 7) = 1 := rfl
    rw [this] at k3
    have h23 := congrFun (congrFun k3 2) 3
    change (mkH 1 ![0, 0, 1] : Mat4) 2 3 = (1 : Mat4) 2 3 at h23
    rw [transl_aux, Matrix.one_apply_ne (by decide)] at h23
    exact one_ne_zero h23
  · exact k1 (by simp [exPlane, isPlane])

end Arboris
