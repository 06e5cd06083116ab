import Verif.Proofs.UrdfKept
import Verif.Proofs.UrdfEssence
import Verif.Model.UrdfFile
import Verif.Props.UrdfLoad

/-! # C108, C109, C110: the XML files of URDF -/

namespace Arboris
open Matrix Graph Urdf Build UrdfXml UrdfXml.Spec Spec

variable {c : Codec} {rd : ℝ → ℝ}

/-! ### an example: natural numbers, written `0`, `10`, `110`, … -/

/-- the text of a number, cut to a natural number -/
noncomputable def exFmt (x : ℝ) : String := String.ofList (List.replicate ⌊x⌋₊ '1' ++ ['0'])

/-- it reads these texts only -/
noncomputable def exRead (s : String) : Option ℝ :=
  if s.toList = List.replicate (s.toList.length - 1) '1' ++ ['0'] then some ((s.toList.length - 1 : ℕ) : ℝ) else none

noncomputable def exCodec : Codec := ⟨exFmt, exRead⟩

lemma exPfloat (x : ℝ) : pfloat exCodec x = exFmt x := by
  simp [pfloat, exCodec, exFmt]

lemma exReads : Reads exCodec fun x => (⌊x⌋₊ : ℝ) := by
  refine ⟨fun x => ?_, fun x => ?_⟩
  · rw [exPfloat]
    refine ⟨fun e => ?_, ?_⟩
    · have := congrArg String.toList e
      simp [exFmt] at this
    · intro k hk
      simp only [exFmt, String.toList_ofList, List.mem_append, List.mem_replicate, List.mem_singleton] at hk
      rcases hk with ⟨_, rfl⟩ | rfl <;> decide
  · rw [exPfloat]
    simp [exCodec, exRead, exFmt]

lemma exExact : Exact exCodec fun x => (⌊x⌋₊ : ℝ) := by
  refine ⟨by simp, fun s x h => ?_⟩
  simp only [exCodec, exRead] at h
  split at h
  · obtain rfl := Option.some.inj h; simp
  · cases h

/-! ### C108: written and read again -/

/-- C108: the robot read from the file written for a robot is the same robot, up to what `reread` says: the digits kept for the numbers, the type of
the strings, missing links, and `mimic`.  This holds for every file in which the elements and attributes of the written one are found: comments,
indentation, other elements and other attributes may be added, the attributes may be in another order. -/
theorem C108_round (R : Reads c rd) {r : URDF} {doc doc' : List Xml} (h : robotXml c r = .ok doc) (hd : essenceDoc doc' = essenceDoc doc) :
    parseDoc c doc' = .ok (reread c rd r) := by
  rw [← parseDoc_essence doc', hd, parseDoc_essence, robot_round R h]

/-- C108: a robot is written if the names and texts of its joints, materials and meshes can be converted to `str`; otherwise `to_xml` raises
`UnicodeEncodeError`.  There is no other error. -/
theorem C108_written (r : URDF) :
    ((∀ e ∈ r.elements, ∀ s ∈ texts e, Convertible s) → ∃ doc, robotXml c r = .ok doc) ∧
      ((∃ e ∈ r.elements, ∃ s ∈ texts e, ¬ Convertible s) → robotXml c r = .error .unicodeError) := by
  refine ⟨(robot_outcome r).1, fun ⟨e, he, s, hs, h⟩ => (robot_outcome r).2 fun hn => h (hn e he s hs)⟩

/-- C108, the full claim: a robot read from a file, written and read again, is the same robot. -/
def C108_Claim : Prop := ∀ (c : Codec) (rd : ℝ → ℝ), Reads c rd → Exact c rd → ∀ doc r, parseDoc c doc = .ok r →
  ∃ doc', robotXml c r = .ok doc' ∧ parseDoc c doc' = .ok r

/-- C108, the proved part: the files written by `to_xml` are read as the same robot if in the first file each joint has a parent and a child and mimics
no other joint, and meshes have no empty scale. -/
theorem C108_partial (R : Reads c rd) (E : Exact c rd) {doc : List Xml} {r : URDF} (h : parseDoc c doc = .ok r) (hw : ∀ e ∈ r.elements, Whole e)
    {doc' : List Xml} (h' : robotXml c r = .ok doc') : parseDoc c doc' = .ok r := by
  rw [robot_round R h', robot_kept E h hw]

/-- a file in which a joint mimics another -/
def exMimic : List Xml :=
  [.elem "robot" [("name", "r")] [.text "\n",
    .elem "joint" [("name", "j"), ("type", "fixed")] [.elem "parent" [("link", "a")] [], .elem "child" [("link", "b")] [], .elem "mimic" [("joint", "k")] []]]]

/-- the robot it gives -/
def exMimicRobot : URDF := ⟨.uni "r", [.joint ⟨.uni "j", some (.uni "a"), some (.uni "b"), .uni "fixed", .none, none, none, none, none, none, some ⟨.uni "k", none, none⟩⟩]⟩

lemma exMimic_parse (c : Codec) : parseDoc c exMimic = .ok exMimicRobot := rfl

/-- C108: the full claim is false, `to_xml` does not write `mimic`. -/
theorem C108_false : ¬ C108_Claim := by
  intro h
  obtain ⟨doc', h1, h2⟩ := h exCodec _ exReads exExact exMimic exMimicRobot (exMimic_parse _)
  rw [robot_round exReads h1] at h2
  have := Except.ok.inj h2
  simp [reread, exMimicRobot, reElement, reJoint] at this

/-- the same with a joint named `é`, without `mimic` -/
def exAccent : List Xml :=
  [.elem "robot" [("name", "é")] [.elem "link" [("name", "é")] [],
    .elem "joint" [("name", "é"), ("type", "fixed")] [.elem "parent" [("link", "a")] [], .elem "child" [("link", "b")] []]]]

/-- C108, another defect: a file with an accent in the name of a joint is read, and cannot be written.  An accent in the name of a link or of the robot
is not in the way. -/
theorem C108_accent_false (c : Codec) : ∃ r, parseDoc c exAccent = .ok r ∧ (∀ e ∈ r.elements, Whole e) ∧ robotXml c r = .error .unicodeError ∧
    ∃ l doc, robotXml c ⟨r.name, [.link l]⟩ = .ok doc ∧ XElement.link l ∈ r.elements := by
  refine ⟨⟨.uni "é", [.link ⟨.uni "é", none, none, none⟩, .joint ⟨.uni "é", some (.uni "a"), some (.uni "b"), .uni "fixed", .none, none, none, none, none, none, none⟩]⟩,
    rfl, ?_, ?_, ⟨.uni "é", none, none, none⟩, _, rfl, ?_⟩
  · simp [Whole]
  · refine (C108_written _).2 ⟨_, List.mem_cons_of_mem _ List.mem_cons_self, .uni "é", by simp [texts, jointTexts], ?_⟩
    change ¬ (isAscii "é" = true)
    decide
  · exact List.mem_cons_self

lemma map_map_idem {α : Type} {f : α → α} (h : ∀ a, f (f a) = f a) (o : Option α) : (o.map f).map f = o.map f := by
  cases o <;> simp [h]

/-- C108: after that nothing more is lost: the robot read from a written file is kept exactly when it is written and read once more. -/
theorem C108_stable (R : Reads c rd) (E : Exact c rd) {r r' : URDF} {doc doc' : List Xml} (h : robotXml c r = .ok doc) (hr : parseDoc c doc = .ok r')
    (h' : robotXml c r' = .ok doc') : parseDoc c doc' = .ok r' := by
  refine C108_partial R E hr ?_ h'
  rw [robot_round R h] at hr
  obtain rfl := Except.ok.inj hr
  intro e he
  obtain ⟨e0, _, rfl⟩ := List.mem_map.mp he
  have hg : ∀ g, ScaleGiven (reGeom rd g) := by
    intro g
    cases g with
    | mesh fn s => rcases s with _ | _ | ⟨x, l⟩ <;> simp [reGeom, ScaleGiven]
    | box d => obtain ⟨x, y, z⟩ := d; simp [reGeom, ScaleGiven]
    | cylinder r l => simp [reGeom, ScaleGiven]
    | sphere r => simp [reGeom, ScaleGiven]
  cases e0 with
  | joint j => simp [reElement, Whole, reJoint]
  | link l =>
    refine ⟨?_, ?_⟩
    · intro v hv g hgv
      simp only [reLink] at hv
      obtain ⟨v0, _, rfl⟩ := Option.map_eq_some_iff.mp hv
      obtain ⟨g0, _, rfl⟩ := Option.map_eq_some_iff.mp hgv
      exact hg g0
    · intro v hv g hgv
      simp only [reLink] at hv
      obtain ⟨v0, _, rfl⟩ := Option.map_eq_some_iff.mp hv
      obtain ⟨g0, _, rfl⟩ := Option.map_eq_some_iff.mp hgv
      exact hg g0
  | material m => trivial

/-! ### C109: what is read of a file -/

/-- C109: two files which differ only in comments, text, unknown elements, unknown attributes and in the order of the attributes are read alike, errors
included: what is read is in the table of the specification. -/
theorem C109_essence {doc doc' : List Xml} (h : essenceDoc doc = essenceDoc doc') : parseDoc c doc = parseDoc c doc' := by
  rw [← parseDoc_essence doc, h, parseDoc_essence]

/-- the loop over children, one kind of which sets a field -/
lemma loop_last {α β : Type} {f : α → Xml → Except PyErr α} {get : α → Option β} {name : String} {p : Xml → Except PyErr β}
    (hset : ∀ a k a', localName k = some name → f a k = .ok a' → ∃ b, p k = .ok b ∧ get a' = some b)
    (hkeep : ∀ a k a', localName k ≠ some name → f a k = .ok a' → get a' = get a) :
    ∀ (l : List Xml) (a a' : α), l.foldlM f a = .ok a' →
      match (l.filter fun k => localName k = some name).getLast? with
      | none => get a' = get a
      | some k => ∃ b, p k = .ok b ∧ get a' = some b := by
  intro l
  induction l using List.reverseRecOn with
  | nil => intro a a' h; obtain rfl := Except.ok.inj h; simp
  | append_singleton l k ih =>
    intro a a' h
    rw [List.foldlM_append] at h
    obtain ⟨a1, h1, h⟩ := bind_ok h
    rw [List.foldlM_cons] at h
    obtain ⟨a2, h2, h⟩ := bind_ok h
    obtain rfl := Except.ok.inj h
    rw [List.filter_append]
    by_cases e : localName k = some name
    · simp only [List.filter_cons, e, decide_true, if_true, List.filter_nil, List.getLast?_append, List.getLast?_singleton, Option.some_or]
      exact hset a1 k a2 e h2
    · simp only [List.filter_cons, e, decide_false, List.filter_nil, List.append_nil, Bool.false_eq_true, if_false]
      have := ih a a1 h1
      rw [hkeep a1 k a2 e h2]
      exact this

/-- C109: of several `<visual>`, `<collision>` or `<inertial>` of a link only the last is kept, whatever their order (so the other collision shapes of the
file are not in the world). -/
theorem C109_last {n : Xml} {l : XLink} (h : parseLink c n = .ok l) :
    (match lastChild "visual" n with
      | none => l.visual = none
      | some k => ∃ v, parseVisual c k = .ok v ∧ l.visual = some v) ∧
    (match lastChild "collision" n with
      | none => l.collision = none
      | some k => ∃ x, parseCollision c k = .ok x ∧ l.collision = some x) ∧
    match lastChild "inertial" n with
      | none => l.inertial = none
      | some k => ∃ i, parseInertial c k = .ok i ∧ l.inertial = some i := by
  obtain ⟨nm, _, h⟩ := bind_ok h
  refine ⟨?_, ?_, ?_⟩
  · refine loop_last (get := XLink.visual) (p := parseVisual c) ?_ ?_ _ _ _ h
    · intro a k a' e h
      simp only [linkStep, e, if_true] at h
      obtain ⟨b, hb, h⟩ := bind_ok h
      obtain rfl := Except.ok.inj h
      exact ⟨b, hb, rfl⟩
    · intro a k a' e h
      simp only [linkStep, if_neg e] at h
      split at h
      · obtain ⟨b, hb, h⟩ := bind_ok h; obtain rfl := Except.ok.inj h; rfl
      split at h
      · obtain ⟨b, hb, h⟩ := bind_ok h; obtain rfl := Except.ok.inj h; rfl
      · obtain rfl := Except.ok.inj h; rfl
  · refine loop_last (get := XLink.collision) (p := parseCollision c) ?_ ?_ _ _ _ h
    · intro a k a' e h
      simp only [linkStep, e, if_true] at h
      rw [if_neg (by decide)] at h
      obtain ⟨b, hb, h⟩ := bind_ok h
      obtain rfl := Except.ok.inj h
      exact ⟨b, hb, rfl⟩
    · intro a k a' e h
      simp only [linkStep, if_neg e] at h
      split at h
      · obtain ⟨b, hb, h⟩ := bind_ok h; obtain rfl := Except.ok.inj h; rfl
      split at h
      · obtain ⟨b, hb, h⟩ := bind_ok h; obtain rfl := Except.ok.inj h; rfl
      · obtain rfl := Except.ok.inj h; rfl
  · refine loop_last (get := XLink.inertial) (p := parseInertial c) ?_ ?_ _ _ _ h
    · intro a k a' e h
      simp only [linkStep, e, if_true] at h
      rw [if_neg (by decide), if_neg (by decide)] at h
      obtain ⟨b, hb, h⟩ := bind_ok h
      obtain rfl := Except.ok.inj h
      exact ⟨b, hb, rfl⟩
    · intro a k a' e h
      simp only [linkStep, if_neg e] at h
      split at h
      · obtain ⟨b, hb, h⟩ := bind_ok h; obtain rfl := Except.ok.inj h; rfl
      split at h
      · obtain ⟨b, hb, h⟩ := bind_ok h; obtain rfl := Except.ok.inj h; rfl
      · obtain rfl := Except.ok.inj h; rfl

/-- a link with two collision shapes, a comment, an unknown element and an unknown attribute, and the same without what is not read -/
def exTwo : List Xml :=
  [.comment "a robot", .elem "robot" [("version", "1"), ("name", "r")] [.text "\n ",
    .elem "link" [("name", "a")] [.elem "collision" [] [.elem "geometry" [] [.elem "sphere" [("radius", "10")] []]], .comment "and",
      .elem "sensor" [] [], .elem "collision" [("name", "two")] [.elem "geometry" [] [.text " ", .elem "sphere" [("radius", "110")] []]]]], .text "\n"]
def exTwo' : List Xml :=
  [.elem "robot" [("name", "r")] [
    .elem "link" [("name", "a")] [.elem "collision" [] [.elem "geometry" [] [.elem "sphere" [("radius", "10")] []]],
      .elem "collision" [] [.elem "geometry" [] [.elem "sphere" [("radius", "110")] []]]]]]

/-- C109 on this file: what is read is the second sphere, of radius 2 -/
lemma exTwo_parse : essenceDoc exTwo = essenceDoc exTwo' ∧
    parseDoc exCodec exTwo = .ok ⟨.uni "r", [.link ⟨.uni "a", none, none, some ⟨some (.sphere 2), none⟩⟩]⟩ := by
  have e : essenceDoc exTwo = essenceDoc exTwo' := by
    simp [essenceDoc, exTwo, exTwo', Xml.isNoise, essence, essences, isRead, kidsRead, attrsRead, keepAttrs, localName, List.lookup]
  refine ⟨e, ?_⟩
  have h1 : float exCodec "10" = .ok 1 := by
    have := float_pfloat exReads 1
    rwa [exPfloat, show exFmt 1 = "10" by simp [exFmt], Nat.floor_one, Nat.cast_one] at this
  have h2 : float exCodec "110" = .ok 2 := by
    have := float_pfloat exReads 2
    rwa [exPfloat, show exFmt 2 = "110" by simp [exFmt, List.replicate], show (⌊(2 : ℝ)⌋₊ : ℝ) = 2 by norm_num] at this
  rw [C109_essence e]
  have s1 : parseSphere exCodec (.elem "sphere" [("radius", "10")] []) = .ok (.sphere 1) := by
    simp [parseSphere, getAttribute, h1, Bind.bind, Except.bind]
  have s2 : parseSphere exCodec (.elem "sphere" [("radius", "110")] []) = .ok (.sphere 2) := by
    simp [parseSphere, getAttribute, h2, Bind.bind, Except.bind]
  simp [parseDoc, exTwo', Xml.isNoise, children, getAttribute, robotStep, localName, parseLink, linkStep, parseCollision, collisionStep, parseGeom, s1, s2,
    Bind.bind, Except.bind, Pure.pure, Except.pure, Functor.map, Except.map]

/-- C108 on this file: it meets the hypotheses of `C108_partial`, and is written -/
example : ∃ r doc', parseDoc exCodec exTwo = .ok r ∧ (∀ e ∈ r.elements, Whole e) ∧ robotXml exCodec r = .ok doc' ∧ parseDoc exCodec doc' = .ok r := by
  have hw : ∀ e ∈ [XElement.link ⟨.uni "a", none, none, some ⟨some (.sphere 2), none⟩⟩], Whole e := by
    intro e he
    obtain rfl := List.mem_singleton.mp he
    refine ⟨by simp, ?_⟩
    intro x hx g hg
    obtain rfl := Option.some.inj hx
    obtain rfl := Option.some.inj hg
    trivial
  obtain ⟨doc', h⟩ := (C108_written (c := exCodec) ⟨.uni "r", [.link ⟨.uni "a", none, none, some ⟨some (.sphere 2), none⟩⟩]⟩).1 (by
    simp [texts, linkTexts, geomTexts])
  exact ⟨_, doc', exTwo_parse.2, hw, h, C108_partial exReads exExact exTwo_parse.2 hw h⟩

/-! ### C110: axes -/

/-- C110: an axis of three numbers, whatever the white space, is converted as in the model of `load`. -/
theorem C110_numbers {sort : Vec3 → Equiv.Perm (Fin 3)} {j : XJoint} {s : PyStr} {x y z : String} {a b d : ℝ} (hs : j.axis = .str s)
    (hw : pySplit s.chars = [x, y, z]) (hx : c.read x = some a) (hy : c.read y = some b) (hz : c.read z = some d) :
    convertJoint c sort j = toJoint sort (viewJoint ![a, b, d] j) := by
  unfold convertJoint toJoint
  have : readAxis c j.axis = .ok (.vec ![a, b, d]) := by
    rw [hs]
    simp only [readAxis, hw, float, hx, hy, hz, Bind.bind, Except.bind]
  rw [this]
  simp only [viewJoint]
  refine bind_congr fun H => ?_
  simp only [Bind.bind, Except.bind]
  have : typeCaseFile sort (.vec ![a, b, d]) (typeOf j.joint_type.chars) = typeCase sort ![a, b, d] (typeOf j.joint_type.chars) := by
    cases typeOf j.joint_type.chars <;> rfl
  rw [this]

/-- C110: an axis written for three numbers is read as these numbers. -/
theorem C110_written (R : Reads c rd) (x y z : ℝ) : readAxis c (asText c (.nums [x, y, z])) = .ok (.vec ![rd x, rd y, rd z]) := by
  have h := pySplit_pyJoin ([x, y, z].map (pfloat c)) (by
    intro w hw
    obtain ⟨x, _, rfl⟩ := List.mem_map.mp hw
    exact R.word x)
  simp only [readAxis, asText, PyStr.chars, h]
  simp only [List.map_cons, List.map_nil, float_pfloat R, Bind.bind, Except.bind]

/-- the axes which the code accepts by name, from lines 85-104: `"x"`, `"y"`, `"z"` and the capitals -/
def UrdfXml.Spec.letters : List (String × Fin 3) := [("x", 0), ("X", 0), ("y", 1), ("Y", 1), ("z", 2), ("Z", 2)]

/-- the class of a hinge about an axis of the frame -/
def UrdfXml.Spec.hingeOf : Fin 3 → LinKind := ![.Rx, .Ry, .Rz]

/-- C110, the full claim: a revolute joint whose axis is a letter turns about that axis. -/
def C110_Claim : Prop := ∀ (c : Codec) (sort : Vec3 → Equiv.Perm (Fin 3)) (j : XJoint) (x : String × Fin 3), x ∈ letters → j.origin = none →
  j.joint_type.chars = "revolute" → j.axis = .str (.uni x.1) → convertJoint c sort j = .ok ⟨linkName j.parent, linkName j.child, 1, none, .zero (hingeOf x.2)⟩

lemma pySplit_letter {x : String × Fin 3} (h : x ∈ letters) : pySplit x.1 = [x.1] := by
  simp only [letters, List.mem_cons, List.not_mem_nil, or_false] at h
  rcases h with rfl | rfl | rfl | rfl | rfl | rfl <;> decide

/-- C110, the proved part, with the outcomes for any axis which is not three words: `"x"` and `"X"` are accepted; any other text raises `TypeError` if the
joint is revolute or prismatic, and does not matter if it is fixed or floating; another type of joint, `"continuous"` for instance, raises
`KeyError`. -/
theorem C110_partial {sort : Vec3 → Equiv.Perm (Fin 3)} {j : XJoint} {s : PyStr} {H : Mat4} (hs : j.axis = .str s) (hH : toPose j.origin = .ok H)
    (hw : (pySplit s.chars).length ≠ 3) :
    (s.chars = "x" ∨ s.chars = "X" → j.joint_type.chars = "revolute" →
      convertJoint c sort j = .ok ⟨linkName j.parent, linkName j.child, H, none, .zero .Rx⟩) ∧
    (s.chars = "x" ∨ s.chars = "X" → j.joint_type.chars = "prismatic" →
      convertJoint c sort j = .ok ⟨linkName j.parent, linkName j.child, H, none, .zero .Tx⟩) ∧
    (¬ (s.chars = "x" ∨ s.chars = "X") → j.joint_type.chars = "revolute" ∨ j.joint_type.chars = "prismatic" →
      convertJoint c sort j = .error .typeError) ∧
    (j.joint_type.chars = "fixed" → convertJoint c sort j = .ok ⟨linkName j.parent, linkName j.child, H, none, .fixed⟩) ∧
    (j.joint_type.chars = "floating" → convertJoint c sort j = .ok ⟨linkName j.parent, linkName j.child, H, none, .free 1 0⟩) ∧
    (j.joint_type.chars ∉ ["revolute", "prismatic", "fixed", "floating"] → convertJoint c sort j = .error .keyError) := by
  have ha : readAxis c j.axis = .ok (.word s.chars) := by
    rw [hs]
    simp only [readAxis]
    split
    · rename_i x y z e; rw [e] at hw; simp at hw
    · rfl
  unfold convertJoint
  rw [hH, ha]
  simp only [Bind.bind, Except.bind]
  refine ⟨?_, ?_, ?_, ?_, ?_, ?_⟩
  · intro h e; rw [e]; simp only [typeOf, typeCaseFile, axisCaseFile, if_pos h]
  · intro h e; rw [e]; simp only [typeOf, typeCaseFile, axisCaseFile, if_pos h]
  · rintro h (e | e) <;> · rw [e]; simp only [typeOf, typeCaseFile, axisCaseFile, if_neg h]
  · intro e; rw [e]; rfl
  · intro e; rw [e]; rfl
  · intro h
    have ht : typeCaseFile sort (.word s.chars) (typeOf j.joint_type.chars) = .error .keyError := by
      generalize j.joint_type.chars = t at h
      have h3 : typeOf t = .continuous ∨ typeOf t = .planar ∨ typeOf t = .unknown := by
        unfold typeOf
        split <;> simp_all
      rcases h3 with e | e | e <;> rw [e] <;> rfl
    rw [ht]

/-- C110: the full claim is false: the axis `"y"` raises `TypeError` (line 85 asks `numpy.allclose` of the string). -/
theorem C110_false : ¬ C110_Claim := by
  intro h
  have h1 := h exCodec (fun _ => 1) ⟨.uni "j", some (.uni "a"), some (.uni "b"), .uni "revolute", .str (.uni "y"), none, none, none, none, none, none⟩ ("y", 1)
    (by decide) rfl rfl rfl
  have h2 := (C110_partial (c := exCodec) (sort := fun _ => 1)
    (j := ⟨.uni "j", some (.uni "a"), some (.uni "b"), .uni "revolute", .str (.uni "y"), none, none, none, none, none, none⟩) (s := .uni "y") (H := 1) rfl rfl
    (by simp only [PyStr.chars]; rw [pySplit_letter (x := ("y", 1)) (by decide)]; decide)).2.2.1 (by decide) (.inl rfl)
  rw [h2] at h1
  cases h1

/-- C110, another defect: an axis given as a list of numbers, as in a robot built in Python, is written to a file and read again (`C110_written`), but cannot
be converted directly. -/
theorem C110_list {sort : Vec3 → Equiv.Perm (Fin 3)} {j : XJoint} {l : List ℝ} {H : Mat4} (hs : j.axis = .nums l) (hH : toPose j.origin = .ok H) :
    convertJoint c sort j = .error .attributeError := by
  unfold convertJoint
  rw [hH, hs]
  rfl

/-- C110: a file of a well-formed robot is loaded, as `C84` says, with any layout: the robot is that of the elements of the file, in their order. -/
theorem C110_load {sort : Vec3 → Equiv.Perm (Fin 3)} (hs : ∀ v, IsArgsortAbs v (sort v)) {S : RS} {F : Forest (FrameRef × ℕ × FrameRef) ℕ} (hg : Good S F)
    {opt : Options} (hpre : opt.pre = "") (hsuf : opt.suf = "") (hH : ∀ K, opt.H_init = some K → ishomogeneousmatrix K)
    {doc doc' : List Xml} {r : URDF} (hd : parseDoc c doc = .ok r) {es : List (ULink ⊕ UJoint)} (he : viewElements c r.elements = some es)
    (hr : WellFormed opt.save_joint_limits (Robot.parse es)) {lim : ℕ} (hl1 : depth F < lim) (hl2 : (Robot.parse es).links.length < lim)
    (hdd : essenceDoc doc' = essenceDoc doc) :
    ∃ r' es' res S' f0 b G, parseDoc c doc' = .ok r' ∧ viewElements c r'.elements = some es' ∧ Runs (load sort lim opt (Robot.parse es')) S res S' ∧
      Loaded opt (Robot.parse es) S F res S' f0 b G := by
  obtain ⟨res, S', f0, b, G, h1, h2⟩ := C84_load hs hg hpre hsuf hH hr hl1 hl2
  exact ⟨r, es, res, S', f0, b, G, by rw [C109_essence hdd, hd], he, h1, h2⟩

/-- a file of three links and two joints -/
def exLoad : List Xml :=
  [.elem "robot" [("name", "r")] [
    .elem "joint" [("name", "j2"), ("type", "fixed")] [.elem "parent" [("link", "b")] [], .elem "child" [("link", "c")] [], .elem "axis" [("xyz", "0 0 10")] []],
    .elem "link" [("name", "c")] [], .elem "link" [("name", "a")] [],
    .elem "joint" [("name", "j1"), ("type", "revolute")] [.elem "child" [("link", "b")] [], .elem "axis" [("xyz", "  0 0\n10")] [], .elem "parent" [("link", "a")] []],
    .elem "link" [("name", "b")] []]]

/-- C110 on this file: it gives the robot with which `C84` is illustrated -/
example : ∃ r, parseDoc exCodec exLoad = .ok r ∧ viewElements exCodec r.elements = some urdfModel ∧ WellFormed false (Robot.parse urdfModel) := by
  have h0 : float exCodec "0" = .ok 0 := by
    have := float_pfloat exReads 0
    rwa [exPfloat, show exFmt 0 = "0" by simp [exFmt], Nat.floor_zero, Nat.cast_zero] at this
  have h1 : float exCodec "10" = .ok 1 := by
    have := float_pfloat exReads 1
    rwa [exPfloat, show exFmt 1 = "10" by simp [exFmt], Nat.floor_one, Nat.cast_one] at this
  have a1 : ∀ s, pySplit s = ["0", "0", "10"] → readAxis exCodec (.str (.uni s)) = .ok (.vec ![0, 0, 1]) := by
    intro s hs
    simp only [readAxis, PyStr.chars, hs, h0, h1, Bind.bind, Except.bind]
  refine ⟨⟨.uni "r", [.joint ⟨.uni "j2", some (.uni "b"), some (.uni "c"), .uni "fixed", .str (.uni "0 0 10"), none, none, none, none, none, none⟩,
    .link ⟨.uni "c", none, none, none⟩, .link ⟨.uni "a", none, none, none⟩,
    .joint ⟨.uni "j1", some (.uni "a"), some (.uni "b"), .uni "revolute", .str (.uni "  0 0\n10"), none, none, none, none, none, none⟩,
    .link ⟨.uni "b", none, none, none⟩]⟩, rfl, ?_, urdfModel_ok⟩
  simp only [viewElements, a1 "0 0 10" (by decide), a1 "  0 0\n10" (by decide)]
  rfl

end Arboris
