import Verif.Spec.UrdfXml

/-! # What is read of an XML file of URDF -/

namespace Arboris.UrdfXml
open Urdf Spec

lemma lookup_keepAttrs (l : Attrs) (n : String) : ∀ names : List String, n ∈ names → (keepAttrs names l).lookup n = l.lookup n := by
  intro names
  induction names with
  | nil => simp
  | cons m names ih =>
    intro h
    unfold keepAttrs at ih ⊢
    by_cases e : n = m
    · subst e
      cases hl : l.lookup n with
      | some v => simp [hl]
      | none =>
        rw [List.filterMap_cons, hl]
        simp only [Option.map_none]
        clear ih h
        induction names with
        | nil => rfl
        | cons k names ih =>
          rw [List.filterMap_cons]
          by_cases e : n = k
          · subst e; rw [hl]; simpa using ih
          · cases hk : l.lookup k with
            | none => simpa using ih
            | some v => simp only [Option.map_some]; rw [List.lookup_cons, beq_eq_false_iff_ne.mpr e]; exact ih
    · have h := (List.mem_cons.mp h).resolve_left e
      rw [List.filterMap_cons]
      cases hm : l.lookup m with
      | none => simpa using ih h
      | some v => simp only [Option.map_some]; rw [List.lookup_cons, beq_eq_false_iff_ne.mpr e]; exact ih h

variable {c : Codec}

lemma localName_essence (kind : String) (n : Xml) : localName (essence kind n) = localName n := by
  cases n <;> simp [essence, localName]

lemma getAttribute_essence {kind name : String} (h : name ∈ attrsRead kind) (n : Xml) :
    getAttribute name (essence kind n) = getAttribute name n := by
  cases n <;> simp [essence, getAttribute, lookup_keepAttrs _ _ _ h]

lemma ifAttribute_essence {α : Type} {g : String → Except PyErr α} {kind name : String} (h : name ∈ attrsRead kind) (n : Xml) :
    ifAttribute name g (essence kind n) = ifAttribute name g n := by
  cases n <;> simp [essence, ifAttribute, lookup_keepAttrs _ _ _ h]

lemma floatAttr_essence {kind name : String} (h : name ∈ attrsRead kind) (n : Xml) :
    floatAttr c name (essence kind n) = floatAttr c name n := by
  unfold floatAttr; rw [getAttribute_essence h]

lemma isNoise_essence (kind : String) (n : Xml) : (essence kind n).isNoise = n.isNoise := by cases n <;> rfl

lemma not_noise_of_isRead {kind : String} {n : Xml} (h : isRead kind n = true) : n.isNoise = false := by
  cases n <;> simp_all [isRead, Xml.isNoise]

/-- the loop over the children of an element -/
lemma loop_essence {α : Type} {f : α → Xml → Except PyErr α} {kind : String}
    (hread : ∀ a n tag, isRead kind n = true → localName n = some tag → f a (essence tag n) = f a n)
    (hother : ∀ a n, n.isNoise = false → isRead kind n = false → f a n = .ok a) (hk : kind ≠ "geometry") (n : Xml) :
    ∀ a, (children (essence kind n)).foldlM f a = (children n).foldlM f a := by
  cases n with
  | elem tag attrs kids =>
    simp only [essence, children]
    induction kids with
    | nil => intro a; rfl
    | cons k kids ih =>
      intro a
      rw [essences]
      by_cases hr : isRead kind k = true
      · have hn := not_noise_of_isRead hr
        obtain ⟨t, at', ks, rfl⟩ : ∃ t at' ks, k = .elem t at' ks := by
          cases k <;> simp_all [isRead]
        simp only [hr, if_true, List.singleton_append, localName, Option.getD_some]
        rw [List.filter_cons_of_pos (by rw [isNoise_essence, hn]; rfl), List.filter_cons_of_pos (by rw [hn]; rfl)]
        simp only [List.foldlM_cons]
        rw [hread a _ t hr rfl]
        exact bind_congr fun b => ih b
      · simp only [hr, Bool.false_eq_true, if_false, List.nil_append]
        cases hn : k.isNoise with
        | true => rw [List.filter_cons_of_neg (by simp [hn])]; exact ih a
        | false =>
          rw [List.filter_cons_of_pos (by simp [hn]), List.foldlM_cons, hother a k hn (by simpa using hr)]
          exact ih a
  | text s => intro a; rfl
  | comment s => intro a; rfl
  | other s => intro a; rfl

lemma parsePose_essence (n : Xml) : parsePose c (essence "origin" n) = parsePose c n := by
  unfold parsePose
  rw [ifAttribute_essence (by decide), ifAttribute_essence (by decide)]

lemma parseBox_essence (n : Xml) : parseBox c (essence "box" n) = parseBox c n := by
  unfold parseBox; rw [getAttribute_essence (by decide)]

lemma parseCylinder_essence (n : Xml) : parseCylinder c (essence "cylinder" n) = parseCylinder c n := by
  unfold parseCylinder; rw [getAttribute_essence (by decide), getAttribute_essence (by decide)]

lemma parseSphere_essence (n : Xml) : parseSphere c (essence "sphere" n) = parseSphere c n := by
  unfold parseSphere; rw [getAttribute_essence (by decide)]

lemma parseMesh_essence (n : Xml) : parseMesh c (essence "mesh" n) = parseMesh c n := by
  unfold parseMesh; rw [getAttribute_essence (by decide), getAttribute_essence (by decide)]

lemma children_geometry (n : Xml) : children (essence "geometry" n) = (children n).map fun k => essence ((localName k).getD "") k := by
  cases n with
  | elem tag attrs kids =>
    simp only [essence, children]
    induction kids with
    | nil => rfl
    | cons k kids ih =>
      rw [essences]
      cases hn : k.isNoise with
      | true =>
        have : isRead "geometry" k = false := by cases k <;> simp_all [isRead, Xml.isNoise]
        rw [List.filter_cons_of_neg (by simp [hn])]
        simpa [this] using ih
      | false =>
        have : isRead "geometry" k = true := by cases k <;> simp_all [isRead, Xml.isNoise]
        simp only [this, if_true, List.singleton_append]
        rw [List.filter_cons_of_pos (by rw [isNoise_essence, hn]; rfl), List.filter_cons_of_pos (by simp [hn]), List.map_cons, ih]
  | text s => rfl
  | comment s => rfl
  | other s => rfl

lemma parseGeom_essence (n : Xml) : parseGeom c (essence "geometry" n) = parseGeom c n := by
  unfold parseGeom
  rw [children_geometry]
  cases children n with
  | nil => rfl
  | cons k l =>
    simp only [List.map_cons, localName_essence]
    by_cases h1 : localName k = some "box"
    · simp only [h1, if_true, Option.getD_some, parseBox_essence]
    by_cases h2 : localName k = some "cylinder"
    · simp [h2, parseCylinder_essence]
    by_cases h3 : localName k = some "sphere"
    · simp [h3, parseSphere_essence]
    by_cases h4 : localName k = some "mesh"
    · simp [h4, parseMesh_essence]
    simp only [h1, h2, h3, h4, if_false]

/-- an element which is not read has another name -/
lemma name_of_not_read {kind t : String} (ht : t ∈ kidsRead kind) {n : Xml} (h : isRead kind n = false) : localName n ≠ some t := by
  intro e
  cases n with
  | elem tag a k =>
    simp only [localName, Option.some.injEq] at e
    subst e
    simp [isRead, ht] at h
  | _ => simp [localName] at e

lemma read_kids {kind : String} (hk : kind ≠ "geometry") {n : Xml} {tag : String} (h : isRead kind n = true) (e : localName n = some tag) :
    tag ∈ kidsRead kind := by
  cases n with
  | elem t a k =>
    simp only [localName, Option.some.injEq] at e
    subst e
    simpa [isRead, hk] using h
  | _ => simp [localName] at e

lemma parseColor_essence (n : Xml) : parseColor c (essence "color" n) = parseColor c n := by
  unfold parseColor; rw [getAttribute_essence (by decide)]

lemma parseCollision_essence (n : Xml) : parseCollision c (essence "collision" n) = parseCollision c n := by
  unfold parseCollision
  refine loop_essence ?_ ?_ (by decide) n _
  · intro a n tag hr e
    have ht := read_kids (by decide) hr e
    simp only [kidsRead, List.mem_cons, List.not_mem_nil, or_false] at ht
    unfold collisionStep
    simp only [localName_essence, e]
    rcases ht with rfl | rfl
    · simp only [if_true, parseGeom_essence]
    · simp [parsePose_essence]
  · intro a n _ hr
    have h1 := name_of_not_read (t := "geometry") (by decide) hr
    have h2 := name_of_not_read (t := "origin") (by decide) hr
    simp [collisionStep, h1, h2]

lemma parseMaterial_essence (n : Xml) : parseMaterial c (essence "material" n) = parseMaterial c n := by
  unfold parseMaterial
  rw [ifAttribute_essence (by decide)]
  refine bind_congr fun b => loop_essence ?_ ?_ (by decide) n _
  · intro a n tag hr e
    have ht := read_kids (by decide) hr e
    simp only [kidsRead, List.mem_cons, List.not_mem_nil, or_false] at ht
    unfold materialStep
    simp only [localName_essence, e]
    rcases ht with rfl | rfl
    · simp [parseColor_essence]
    · simp [getAttribute_essence (kind := "texture") (name := "filename") (by decide)]
  · intro a n _ hr
    have h1 := name_of_not_read (t := "color") (by decide) hr
    have h2 := name_of_not_read (t := "texture") (by decide) hr
    simp [materialStep, h1, h2]

lemma parseVisual_essence (n : Xml) : parseVisual c (essence "visual" n) = parseVisual c n := by
  unfold parseVisual
  refine loop_essence ?_ ?_ (by decide) n _
  · intro a n tag hr e
    have ht := read_kids (by decide) hr e
    simp only [kidsRead, List.mem_cons, List.not_mem_nil, or_false] at ht
    unfold visualStep
    simp only [localName_essence, e]
    rcases ht with rfl | rfl | rfl
    · simp only [if_true, parseGeom_essence]
    · simp [parsePose_essence]
    · simp [parseMaterial_essence]
  · intro a n _ hr
    have h1 := name_of_not_read (t := "geometry") (by decide) hr
    have h2 := name_of_not_read (t := "origin") (by decide) hr
    have h3 := name_of_not_read (t := "material") (by decide) hr
    simp [visualStep, h1, h2, h3]

lemma parseInertial_essence (n : Xml) : parseInertial c (essence "inertial" n) = parseInertial c n := by
  unfold parseInertial
  refine loop_essence ?_ ?_ (by decide) n _
  · intro a n tag hr e
    have ht := read_kids (by decide) hr e
    simp only [kidsRead, List.mem_cons, List.not_mem_nil, or_false] at ht
    unfold inertialStep
    simp only [localName_essence, e]
    rcases ht with rfl | rfl | rfl
    · simp only [if_true]
      rw [floatAttr_essence (by decide), floatAttr_essence (by decide), floatAttr_essence (by decide), floatAttr_essence (by decide),
        floatAttr_essence (by decide), floatAttr_essence (by decide)]
    · simp [floatAttr_essence (kind := "mass") (name := "value") (by decide)]
    · simp [parsePose_essence]
  · intro a n _ hr
    have h1 := name_of_not_read (t := "inertia") (by decide) hr
    have h2 := name_of_not_read (t := "mass") (by decide) hr
    have h3 := name_of_not_read (t := "origin") (by decide) hr
    simp [inertialStep, h1, h2, h3]

lemma parseLink_essence (n : Xml) : parseLink c (essence "link" n) = parseLink c n := by
  unfold parseLink
  rw [getAttribute_essence (by decide)]
  refine bind_congr fun b => loop_essence ?_ ?_ (by decide) n _
  · intro a n tag hr e
    have ht := read_kids (by decide) hr e
    simp only [kidsRead, List.mem_cons, List.not_mem_nil, or_false] at ht
    unfold linkStep
    simp only [localName_essence, e]
    rcases ht with rfl | rfl | rfl
    · simp only [if_true, parseVisual_essence]
    · simp [parseCollision_essence]
    · simp [parseInertial_essence]
  · intro a n _ hr
    have h1 := name_of_not_read (t := "visual") (by decide) hr
    have h2 := name_of_not_read (t := "collision") (by decide) hr
    have h3 := name_of_not_read (t := "inertial") (by decide) hr
    simp [linkStep, h1, h2, h3]

lemma parseLimit_essence (n : Xml) : parseLimit c (essence "limit" n) = parseLimit c n := by
  unfold parseLimit
  rw [floatAttr_essence (by decide), floatAttr_essence (by decide), ifAttribute_essence (by decide), ifAttribute_essence (by decide)]

lemma parseDynamics_essence (n : Xml) : parseDynamics (essence "dynamics" n) = parseDynamics n := by
  unfold parseDynamics
  rw [ifAttribute_essence (by decide), ifAttribute_essence (by decide)]

lemma parseCalibration_essence (n : Xml) : parseCalibration c (essence "calibration" n) = parseCalibration c n := by
  unfold parseCalibration
  rw [ifAttribute_essence (by decide), ifAttribute_essence (by decide)]

lemma parseMimic_essence (n : Xml) : parseMimic c (essence "mimic" n) = parseMimic c n := by
  unfold parseMimic
  rw [getAttribute_essence (by decide), ifAttribute_essence (by decide), ifAttribute_essence (by decide)]

lemma parseSafety_essence (n : Xml) : parseSafety c (essence "safety_controller" n) = parseSafety c n := by
  unfold parseSafety
  rw [floatAttr_essence (by decide), ifAttribute_essence (by decide), ifAttribute_essence (by decide), ifAttribute_essence (by decide)]

lemma parseJoint_essence (n : Xml) : parseJoint c (essence "joint" n) = parseJoint c n := by
  unfold parseJoint
  rw [getAttribute_essence (by decide), getAttribute_essence (by decide)]
  refine bind_congr fun b => bind_congr fun b' => loop_essence ?_ ?_ (by decide) n _
  · intro a n tag hr e
    have ht := read_kids (by decide) hr e
    simp only [kidsRead, List.mem_cons, List.not_mem_nil, or_false] at ht
    unfold jointStep
    simp only [localName_essence, e]
    rcases ht with rfl | rfl | rfl | rfl | rfl | rfl | rfl | rfl | rfl
    · simp [getAttribute_essence (kind := "parent") (name := "link") (by decide)]
    · simp [getAttribute_essence (kind := "child") (name := "link") (by decide)]
    · simp [getAttribute_essence (kind := "axis") (name := "xyz") (by decide)]
    · simp [parsePose_essence]
    · simp [parseLimit_essence]
    · simp [parseDynamics_essence]
    · simp [parseSafety_essence]
    · simp [parseCalibration_essence]
    · simp [parseMimic_essence]
  · intro a n _ hr
    have h1 := name_of_not_read (t := "parent") (by decide) hr
    have h2 := name_of_not_read (t := "child") (by decide) hr
    have h3 := name_of_not_read (t := "axis") (by decide) hr
    have h4 := name_of_not_read (t := "origin") (by decide) hr
    have h5 := name_of_not_read (t := "limit") (by decide) hr
    have h6 := name_of_not_read (t := "dynamics") (by decide) hr
    have h7 := name_of_not_read (t := "safety_controller") (by decide) hr
    have h8 := name_of_not_read (t := "calibration") (by decide) hr
    have h9 := name_of_not_read (t := "mimic") (by decide) hr
    simp [jointStep, h1, h2, h3, h4, h5, h6, h7, h8, h9]

lemma parseDoc_essence (doc : List Xml) : parseDoc c (essenceDoc doc) = parseDoc c doc := by
  unfold parseDoc essenceDoc
  cases h : doc.filter fun k => !k.isNoise with
  | nil => rfl
  | cons n l =>
    have hn : n.isNoise = false := by
      have := (List.mem_filter.mp (h ▸ List.mem_cons_self : n ∈ doc.filter fun k => !k.isNoise)).2
      simpa using this
    simp only [List.take_succ_cons, List.take_zero, List.map_cons, List.map_nil]
    rw [List.filter_cons_of_pos (by rw [isNoise_essence, hn]; rfl)]
    simp only
    rw [getAttribute_essence (by decide)]
    refine bind_congr fun b => congrArg (· >>= _) (loop_essence ?_ ?_ (by decide) n _)
    · intro a n tag hr e
      have ht := read_kids (by decide) hr e
      simp only [kidsRead, List.mem_cons, List.not_mem_nil, or_false] at ht
      unfold robotStep
      simp only [localName_essence, e]
      rcases ht with rfl | rfl | rfl
      · simp [parseJoint_essence]
      · simp [parseLink_essence]
      · simp [parseMaterial_essence]
    · intro a n _ hr
      have h1 := name_of_not_read (t := "joint") (by decide) hr
      have h2 := name_of_not_read (t := "link") (by decide) hr
      have h3 := name_of_not_read (t := "material") (by decide) hr
      simp [robotStep, h1, h2, h3]

end Arboris.UrdfXml
