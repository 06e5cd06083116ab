import Verif.Props.UrdfXml

/-! # C108, C110: what is read of a `<mimic>`, and the elements of a file as `load` uses them -/

namespace Arboris.UrdfXml.Spec
open Urdf

/-- the shape `load` uses is that of the file -/
def SameGeom : XGeom → UGeom → Prop
  | .box d, .box e => e 0 = d.1 ∧ e 1 = d.2.1 ∧ e 2 = d.2.2
  | .cylinder r l, .cylinder r' l' => r' = r ∧ l' = l
  | .sphere r, .sphere r' => r' = r
  | .mesh fn s, .mesh fn' s' => fn' = (match fn with | some f => f.chars | none => "") ∧ s' = s
  | _, _ => False

/-- a collision or a visual: its shape and its origin -/
def SameShape (g : Option XGeom) (o : Option UPose) (s : UShape) : Prop := s.origin = o ∧ Option.Rel SameGeom g s.geometry

/-- the element `load` uses is that of the file -/
def SameElement (c : Codec) : XElement → ULink ⊕ UJoint → Prop
  | .link l, .inl u => u.name = l.name.chars ∧ u.inertial = l.inertial ∧ Option.Rel (fun x s => SameShape x.geometry x.origin s) l.collision u.collision ∧
      Option.Rel (fun x s => SameShape x.geometry x.origin s) l.visual u.visual
  | .joint j, .inr u => u.name = j.name.chars ∧ u.parent = (match j.parent with | some p => p.chars | none => "") ∧
      u.child = (match j.child with | some p => p.chars | none => "") ∧ u.joint_type = typeOf j.joint_type.chars ∧ u.origin = j.origin ∧ u.limits = j.limits ∧
      ∃ v, readAxis c j.axis = .ok (.vec v) ∧ u.axis = some v
  | _, _ => False

/-- links and joints -/
def IsPart : XElement → Bool
  | .material _ => false
  | _ => true

/-- the attribute `name` is missing, or is a number -/
def NumberAttr (c : Codec) (a : Attrs) (name : String) (v : Option ℝ) : Prop :=
  match a.lookup name with
  | none => v = none
  | some s => ∃ x, c.read s = some x ∧ v = some x

end Arboris.UrdfXml.Spec

namespace Arboris
open Matrix Graph Urdf Build UrdfXml UrdfXml.Spec Spec

variable {c : Codec} {rd : ℝ → ℝ}

lemma ifAttribute_number {t : String} {a : Attrs} {k : List Xml} {n : String} {v : Option ℝ} :
    ifAttribute n (float c) (.elem t a k) = .ok v ↔ NumberAttr c a n v := by
  unfold ifAttribute NumberAttr
  dsimp only
  cases a.lookup n with
  | none => simp [eq_comm]
  | some s =>
    dsimp only
    unfold float
    cases c.read s with
    | none => simp [Bind.bind, Except.bind]
    | some x => simp [Bind.bind, Except.bind, eq_comm]

/-- C108: what is read of a `<mimic>`: the name of the joint, and the numbers `multiplier` and `offset` if they are given; nothing else is accepted. -/
theorem C108_mimic {t : String} {a : Attrs} {k : List Xml} {o : XMimic} : parseMimic c (.elem t a k) = .ok o ↔
    o.joint_name = .uni ((a.lookup "joint").getD "") ∧ NumberAttr c a "multiplier" o.multiplier ∧ NumberAttr c a "offset" o.offset := by
  constructor
  · intro h
    obtain ⟨j, hj, h⟩ := bind_ok h
    obtain ⟨m, hm, h⟩ := bind_ok h
    obtain ⟨f, hf, h⟩ := bind_ok h
    obtain rfl := Except.ok.inj h
    obtain rfl := Except.ok.inj hj
    exact ⟨rfl, ifAttribute_number.mp hm, ifAttribute_number.mp hf⟩
  · rintro ⟨h1, h2, h3⟩
    obtain ⟨j, m, f⟩ := o
    dsimp only at h1 h2 h3
    subst h1
    simp only [parseMimic, getAttribute, ifAttribute_number.mpr h2, ifAttribute_number.mpr h3, Bind.bind, Except.bind]

/-- C108: `to_xml` of a `<mimic>` (which the `to_xml` of the joint does not call) writes what is read as the same object. -/
theorem C108_mimic_round (R : Reads c rd) {o : XMimic} {x : Xml} (h : mimicXml c o = .ok x) :
    parseMimic c x = .ok ⟨.uni o.joint_name.chars, o.multiplier.map rd, o.offset.map rd⟩ := by
  obtain ⟨a1, h1, h⟩ := bind_ok h
  obtain ⟨a2, h2, h⟩ := bind_ok h
  obtain ⟨a3, h3, h⟩ := bind_ok h
  obtain rfl := Except.ok.inj h
  unfold parseMimic
  rw [ifAttribute_num R (v := o.multiplier) (by simp [setAttr_lookup h3, setAttr_lookup h2, setAttr_lookup h1]),
    ifAttribute_num R (v := o.offset) (by simp [setAttr_lookup h3, setAttr_lookup h2, setAttr_lookup h1])]
  have e : a3.lookup "joint" = some o.joint_name.chars := by
    cases hj : o.joint_name <;> simp [setAttr_lookup h3, setAttr_lookup h2, setAttr_lookup h1, hj, textOf, PyStr.chars]
  simp only [getAttribute, e, Bind.bind, Except.bind, Option.getD_some]

lemma viewGeom_same (g : XGeom) : SameGeom g (viewGeom g) := by
  cases g with
  | box d => exact ⟨rfl, rfl, rfl⟩
  | cylinder r l => exact ⟨rfl, rfl⟩
  | sphere r => rfl
  | mesh fn s => cases fn <;> exact ⟨rfl, rfl⟩

lemma viewShape_same (g : Option XGeom) (o : Option UPose) : SameShape g o ⟨g.map viewGeom, o⟩ := by
  refine ⟨rfl, ?_⟩
  cases g with
  | none => exact .none
  | some g => exact .some (viewGeom_same g)

/-- C110: the elements `load` uses (`viewElements`, in `C110_load`) are the links and joints of the file, in their order: names, inertias, shapes, origins, parents,
children, types, limits, and the three numbers of the axes.  They exist unless a joint has an axis which is not three numbers. -/
theorem C110_view {es : List XElement} :
    ((∀ j, XElement.joint j ∈ es → ∃ v, readAxis c j.axis = .ok (.vec v)) ↔ ∃ us, viewElements c es = some us) ∧
    ∀ us, viewElements c es = some us → List.Forall₂ (SameElement c) (es.filter IsPart) us := by
  induction es with
  | nil => exact ⟨by simp [viewElements], fun us h => by obtain rfl := Option.some.inj h; exact .nil⟩
  | cons e es ih =>
    cases e with
    | link l =>
      refine ⟨by simp [viewElements, ih.1], fun us h => ?_⟩
      obtain ⟨us', h', rfl⟩ := Option.map_eq_some_iff.mp h
      refine .cons ⟨rfl, rfl, ?_, ?_⟩ (ih.2 us' h')
      · simp only [viewLink]
        cases l.collision with
        | none => exact .none
        | some x => exact .some (viewShape_same _ _)
      · simp only [viewLink]
        cases l.visual with
        | none => exact .none
        | some x => exact .some (viewShape_same _ _)
    | material m => exact ⟨by simp [viewElements, ih.1], fun us h => ih.2 us h⟩
    | joint j =>
      cases hr : readAxis c j.axis with
      | error e =>
        refine ⟨?_, fun us h => by simp [viewElements, hr] at h⟩
        simp only [viewElements, hr]
        constructor
        · intro h
          obtain ⟨v, hv⟩ := h j (by simp)
          rw [hr] at hv
          cases hv
        · rintro ⟨us, h⟩
          cases h
      | ok ax =>
        cases ax with
        | vec v =>
          have e : viewElements c (.joint j :: es) = (viewElements c es).map (.inr (viewJoint v j) :: ·) := by simp only [viewElements, hr]
          refine ⟨?_, fun us h => ?_⟩
          · rw [e]
            constructor
            · intro h
              obtain ⟨us, hus⟩ := ih.1.mp fun j' hj' => h j' (by simp [hj'])
              exact ⟨_, by rw [hus]; rfl⟩
            · rintro ⟨us, h⟩ j' hj'
              obtain ⟨us', h', -⟩ := Option.map_eq_some_iff.mp h
              rcases List.mem_cons.mp hj' with hj' | hj'
              · obtain rfl := XElement.joint.inj hj'
                exact ⟨v, hr⟩
              · exact ih.1.mpr ⟨us', h'⟩ j' hj'
          · rw [e] at h
            obtain ⟨us', h', rfl⟩ := Option.map_eq_some_iff.mp h
            refine .cons ⟨rfl, ?_, ?_, rfl, rfl, rfl, v, hr, rfl⟩ (ih.2 us' h')
            · simp only [viewJoint]
              cases j.parent <;> rfl
            · simp only [viewJoint]
              cases j.child <;> rfl
        | _ =>
          refine ⟨?_, fun us h => by simp [viewElements, hr] at h⟩
          simp only [viewElements, hr]
          constructor
          · intro h
            obtain ⟨v, hv⟩ := h j (by simp)
            rw [hr] at hv
            cases hv
          · rintro ⟨us, h⟩
            cases h

/-- C108 (its hypotheses can be met): a `<mimic>` with an offset, the number being written as those of the files of the other examples -/
example : parseMimic exCodec (.elem "mimic" [("joint", "k"), ("offset", "110")] []) = .ok ⟨.uni "k", none, some 2⟩ := by
  refine C108_mimic.mpr ⟨rfl, rfl, 2, ?_, rfl⟩
  simp [exCodec, exRead]

end Arboris
