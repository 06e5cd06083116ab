import Verif.Spec.UrdfXml

/-! # A robot written to XML and read again -/

namespace Arboris.UrdfXml
open Urdf Spec

/-! ### text -/

lemma splitGo_word (w : List Char) (hw : ∀ k ∈ w, isBlank k = false) : ∀ cur rest, splitGo cur (w ++ rest) = splitGo (cur ++ w) rest := by
  induction w with
  | nil => intro cur rest; simp
  | cons k w ih =>
    intro cur rest
    have hk := hw k List.mem_cons_self
    rw [List.cons_append, splitGo]
    simp only [hk, Bool.false_eq_true, if_false]
    rw [ih (fun x hx => hw x (List.mem_cons_of_mem _ hx))]
    simp

lemma flush_word {w : List Char} (h : w ≠ []) : flush w = [w] := by simp [flush, h]

lemma splitGo_join : ∀ ws : List (List Char), (∀ w ∈ ws, w ≠ [] ∧ ∀ k ∈ w, isBlank k = false) → splitGo [] ([' '].intercalate ws) = ws := by
  intro ws
  induction ws with
  | nil => intro _; rfl
  | cons w ws ih =>
    intro h
    obtain ⟨hw, hb⟩ := h w List.mem_cons_self
    have ih := ih fun x hx => h x (List.mem_cons_of_mem _ hx)
    cases ws with
    | nil =>
      have : [' '].intercalate [w] = w ++ [] := by simp [List.intercalate, List.intersperse]
      rw [this, splitGo_word w hb]
      simpa [splitGo] using flush_word hw
    | cons v ws =>
      have : [' '].intercalate (w :: v :: ws) = w ++ (' ' :: [' '].intercalate (v :: ws)) := by simp [List.intercalate, List.intersperse]
      rw [this, splitGo_word w hb, splitGo]
      simp only [List.nil_append, show isBlank ' ' = true from by decide, if_true, flush_word hw, ih, List.singleton_append]

lemma pySplit_pyJoin (l : List String) (h : ∀ w ∈ l, w ≠ "" ∧ ∀ k ∈ w.toList, isBlank k = false) : pySplit (pyJoin l) = l := by
  unfold pySplit pyJoin
  rw [String.toList_ofList, splitGo_join]
  · rw [List.map_map]; simp
  · intro w hw
    obtain ⟨s, hs, rfl⟩ := List.mem_map.mp hw
    refine ⟨?_, (h s hs).2⟩
    intro e; exact (h s hs).1 (by rw [← String.ofList_toList (s := s), e])

variable {c : Codec} {rd : ℝ → ℝ}

lemma float_pfloat (R : Reads c rd) (x : ℝ) : float c (pfloat c x) = .ok (rd x) := by simp [float, R.read x]

lemma floats_join (R : Reads c rd) (l : List ℝ) : floats c (pyJoin (l.map (pfloat c))) = .ok (l.map rd) := by
  unfold floats
  rw [pySplit_pyJoin _ (by
    intro w hw
    obtain ⟨x, _, rfl⟩ := List.mem_map.mp hw
    exact R.word x)]
  induction l with
  | nil => rfl
  | cons x l ih =>
    rw [List.map_cons, List.mapM_cons, float_pfloat R, ih]
    rfl

/-! ### attributes -/

/-- the text given to `setAttribute`, if any -/
def textOf (c : Codec) : PVal → Option String
  | .none => none
  | .str s => some s.chars
  | .num x => some (pfloat c x)
  | .nums l => some (pyJoin (l.map (pfloat c)))

lemma lookup_dictSet (d : Attrs) (k m v : String) : (dictSet d k v).lookup m = if m = k then some v else d.lookup m := by
  unfold dictSet
  split
  · rename_i hk
    induction d with
    | nil => simp at hk
    | cons x d ih =>
      obtain ⟨a, b⟩ := x
      by_cases ha : a = k
      · subst ha
        by_cases hm : m = a
        · subst hm; simp
        · simp only [List.map_cons, if_true, if_neg hm]
          rw [List.lookup_cons, List.lookup_cons, beq_eq_false_iff_ne.mpr hm]
          simp only
          by_cases hd : a ∈ d.map Prod.fst
          · have := ih hd; rwa [if_neg hm] at this
          · congr 1
            refine (List.map_congr_left (g := id) fun y hy => ?_).trans (List.map_id d)
            have : y.1 ≠ a := fun e => hd (e ▸ List.mem_map_of_mem hy)
            simp [this]
      · have hk : k ∈ d.map Prod.fst := (List.mem_cons.mp hk).resolve_left (Ne.symm ha)
        have ih := ih hk
        simp only [List.map_cons, if_neg ha, List.lookup_cons]
        by_cases hm : m = a
        · subst hm; simp [ha]
        · rw [beq_eq_false_iff_ne.mpr hm]; exact ih
  · rename_i hk
    induction d with
    | nil => simp only [List.nil_append, List.lookup_cons, List.lookup_nil]; by_cases h : m = k <;> simp [h, beq_eq_false_iff_ne.mpr]
    | cons x d ih =>
      obtain ⟨a, b⟩ := x
      simp only [List.map_cons, List.mem_cons, not_or] at hk
      simp only [List.cons_append, List.lookup_cons]
      by_cases hm : m = a
      · subst hm; simp [Ne.symm hk.1]
      · rw [beq_eq_false_iff_ne.mpr hm]; exact ih hk.2

lemma setAttr_lookup {n : String} {v : PVal} {a b : Attrs} (h : setAttr c n v a = .ok b) (m : String) :
    b.lookup m = if m = n then (textOf c v).or (a.lookup m) else a.lookup m := by
  cases v with
  | none => simp only [setAttr, Except.ok.injEq] at h; subst h; simp [textOf]
  | num x => simp only [setAttr, Except.ok.injEq] at h; subst h; simp [textOf, lookup_dictSet]
  | nums l => simp only [setAttr, Except.ok.injEq] at h; subst h; simp [textOf, lookup_dictSet]
  | str s =>
    cases s with
    | bytes s => simp only [setAttr, Except.ok.injEq] at h; subst h; simp [textOf, lookup_dictSet, PyStr.chars]
    | uni s =>
      simp only [setAttr] at h
      split at h
      · simp only [Except.ok.injEq] at h; subst h; simp [textOf, lookup_dictSet, PyStr.chars]
      · cases h

lemma bind_ok {α β : Type} {e : Except PyErr α} {f : α → Except PyErr β} {b : β} (h : (e >>= f) = .ok b) : ∃ a, e = .ok a ∧ f a = .ok b := by
  cases e with
  | ok a => exact ⟨a, rfl, h⟩
  | error e => cases h

lemma ifAttribute_none {α : Type} {g : String → Except PyErr α} {n t : String} {a : Attrs} {k : List Xml} (h : a.lookup n = none) :
    ifAttribute n g (.elem t a k) = .ok none := by simp [ifAttribute, h]

lemma ifAttribute_some {α : Type} {g : String → Except PyErr α} {n t s : String} {a : Attrs} {k : List Xml} {y : α} (h : a.lookup n = some s)
    (hg : g s = .ok y) : ifAttribute n g (.elem t a k) = .ok (some y) := by
  simp only [ifAttribute, h, hg]; rfl

lemma ifAttribute_num (R : Reads c rd) {n t : String} {a : Attrs} {k : List Xml} {v : Option ℝ} (h : a.lookup n = textOf c (.ofOpt .num v)) :
    ifAttribute n (float c) (.elem t a k) = .ok (v.map rd) := by
  cases v with
  | none => exact ifAttribute_none h
  | some x => exact ifAttribute_some h (float_pfloat R x)

lemma ifAttribute_nums (R : Reads c rd) {n t : String} {a : Attrs} {k : List Xml} {v : Option (List ℝ)} (h : a.lookup n = textOf c (.ofOpt .nums v)) :
    ifAttribute n (floats c) (.elem t a k) = .ok (v.map (·.map rd)) := by
  cases v with
  | none => exact ifAttribute_none h
  | some x => exact ifAttribute_some h (floats_join R x)

lemma ifAttribute_str {n t : String} {a : Attrs} {k : List Xml} {v : Option PyStr} (h : a.lookup n = textOf c (.ofOpt .str v)) :
    ifAttribute n (fun s => .ok (.uni s)) (.elem t a k) = .ok (v.map reStr) := by
  cases v with
  | none => exact ifAttribute_none h
  | some x => exact ifAttribute_some h rfl

lemma ifAttribute_text {n t : String} {a : Attrs} {k : List Xml} {v : PVal} (h : a.lookup n = textOf c v) :
    ∃ s, ifAttribute n (fun s => .ok (PyStr.uni s)) (.elem t a k) = .ok s ∧ optStr s = asText c v := by
  cases v with
  | none => exact ⟨none, ifAttribute_none h, rfl⟩
  | str s => exact ⟨some _, ifAttribute_some h rfl, rfl⟩
  | num x => exact ⟨some _, ifAttribute_some h rfl, rfl⟩
  | nums l => exact ⟨some _, ifAttribute_some h rfl, rfl⟩

lemma floatAttr_num (R : Reads c rd) {n t : String} {a : Attrs} {k : List Xml} {x : ℝ} (h : a.lookup n = some (pfloat c x)) :
    floatAttr c n (.elem t a k) = .ok (rd x) := by
  simp only [floatAttr, getAttribute, h, Option.getD_some]
  exact float_pfloat R x

lemma pose_round (R : Reads c rd) {p : UPose} {x : Xml} (h : poseXml c p = .ok x) :
    localName x = some "origin" ∧ parsePose c x = .ok (rePose rd p) := by
  obtain ⟨a, ha, h⟩ := bind_ok h
  obtain ⟨b, hb, h⟩ := bind_ok h
  obtain rfl := Except.ok.inj h
  refine ⟨rfl, ?_⟩
  unfold parsePose
  rw [ifAttribute_nums R (v := p.position) (by simp [setAttr_lookup hb, setAttr_lookup ha]),
    ifAttribute_nums R (v := p.rotation) (by simp [setAttr_lookup hb, setAttr_lookup ha])]
  rfl

lemma geom_shape {t : String} {a : Attrs} : children (.elem "geometry" [] [.elem t a []]) = [.elem t a []] := by
  simp [children, Xml.isNoise]

lemma geom_round (R : Reads c rd) {g : XGeom} {x : Xml} (h : geomXml c g = .ok x) :
    localName x = some "geometry" ∧ parseGeom c x = .ok (some (reGeom rd g)) := by
  cases g with
  | box d =>
    obtain ⟨x, y, z⟩ := d
    obtain ⟨a, ha, h⟩ := bind_ok h
    obtain rfl := Except.ok.inj h
    refine ⟨rfl, ?_⟩
    unfold parseGeom
    rw [geom_shape]
    simp only [localName, if_true, parseBox, getAttribute, setAttr_lookup ha, textOf, Option.some_or, Option.getD_some, Bind.bind, Except.bind]
    rw [show floats c (pyJoin ([x, y, z].map (pfloat c))) = .ok ([x, y, z].map rd) from floats_join R _]
    rfl
  | cylinder r l =>
    obtain ⟨a, ha, h⟩ := bind_ok h
    obtain ⟨b, hb, h⟩ := bind_ok h
    obtain rfl := Except.ok.inj h
    refine ⟨rfl, ?_⟩
    unfold parseGeom
    rw [geom_shape]
    have e1 : b.lookup "radius" = some (pfloat c r) := by simp [setAttr_lookup hb, setAttr_lookup ha, textOf]
    have e2 : b.lookup "length" = some (pfloat c l) := by simp [setAttr_lookup hb, textOf]
    simp [localName, parseCylinder, getAttribute, e1, e2, float_pfloat R, Bind.bind, Except.bind, Functor.map, Except.map, reGeom]
  | sphere r =>
    obtain ⟨a, ha, h⟩ := bind_ok h
    obtain rfl := Except.ok.inj h
    refine ⟨rfl, ?_⟩
    unfold parseGeom
    rw [geom_shape]
    have e1 : a.lookup "radius" = some (pfloat c r) := by simp [setAttr_lookup ha, textOf]
    simp [localName, parseSphere, getAttribute, e1, float_pfloat R, Bind.bind, Except.bind, Functor.map, Except.map, reGeom]
  | mesh fn s =>
    obtain ⟨a, ha, h⟩ := bind_ok h
    obtain ⟨b, hb, h⟩ := bind_ok h
    obtain rfl := Except.ok.inj h
    refine ⟨rfl, ?_⟩
    unfold parseGeom
    rw [geom_shape]
    have e1 : (b.lookup "filename").getD "" = (reOptStr fn).chars := by
      simp only [setAttr_lookup hb, setAttr_lookup ha]
      cases fn <;> simp [PVal.ofOpt, textOf, reOptStr, reStr, PyStr.chars]
    have e1' : PyStr.uni (reOptStr fn).chars = reOptStr fn := by cases fn <;> rfl
    have e2 : b.lookup "scale" = textOf c (.ofOpt .nums s) := by simp [setAttr_lookup hb, setAttr_lookup ha]
    have hm : parseMesh c (.elem "mesh" b []) = .ok (reGeom rd (.mesh fn s)) := by
      unfold parseMesh
      simp only [getAttribute, e1, e2, Bind.bind, Except.bind]
      rcases s with _ | _ | ⟨x, l⟩
      · simp [PVal.ofOpt, textOf, reGeom, e1']
      · simp [PVal.ofOpt, textOf, pyJoin, reGeom, e1', List.intercalate]
      · have hne : pyJoin ((x :: l).map (pfloat c)) ≠ "" := by
          intro e
          have h1 := pySplit_pyJoin ((x :: l).map (pfloat c)) (by
            intro w hw
            obtain ⟨x, _, rfl⟩ := List.mem_map.mp hw
            exact R.word x)
          rw [e] at h1
          simp [pySplit, splitGo, flush] at h1
        simp only [PVal.ofOpt, textOf, Option.getD_some, if_neg hne, floats_join R]
        simp [reGeom, e1']
    simp [localName, hm, Functor.map, Except.map]

/-! ### loops -/

lemma children_elems {t : String} {a : Attrs} {l : List Xml} (h : ∀ k ∈ l, k.isNoise = false) : children (.elem t a l) = l := by
  simp only [children]
  exact List.filter_eq_self.mpr fun k hk => by simp [h k hk]

/-- one optional child -/
lemma add_loop {α β : Type} {f : β → Xml → Except PyErr β} {toXml : α → Except PyErr Xml} {o : Option α} {l : List Xml} (h : add toXml o = .ok l) {b : β}
    {g : Option α → β} (hn : g none = b) (hs : ∀ a x, toXml a = .ok x → x.isNoise = false ∧ f b x = .ok (g (some a))) :
    (∀ k ∈ l, k.isNoise = false) ∧ l.foldlM f b = .ok (g o) := by
  cases o with
  | none =>
    obtain rfl := Except.ok.inj h
    exact ⟨by simp, by rw [hn]; rfl⟩
  | some a =>
    obtain ⟨x, hx, h⟩ := bind_ok h
    obtain rfl := Except.ok.inj h
    obtain ⟨h1, h2⟩ := hs a x hx
    exact ⟨by simpa using h1, by rw [List.foldlM_cons, h2]; rfl⟩

lemma not_noise {x : Xml} {t : String} (h : localName x = some t) : x.isNoise = false := by
  cases x <;> simp_all [localName, Xml.isNoise]

lemma foldlM_app {α β : Type} {f : β → α → Except PyErr β} {l l' : List α} {b b' b'' : β} (h : l.foldlM f b = .ok b') (h' : l'.foldlM f b' = .ok b'') :
    (l ++ l').foldlM f b = .ok b'' := by rw [List.foldlM_append, h]; exact h'

lemma forall_app {α : Type} {l l' : List α} {p : α → Prop} (h : ∀ k ∈ l, p k) (h' : ∀ k ∈ l', p k) : ∀ k ∈ l ++ l', p k := by
  intro k hk; exact (List.mem_append.mp hk).elim (h k) (h' k)

lemma collision_round (R : Reads c rd) {o : XCollision} {x : Xml} (h : collisionXml c o = .ok x) :
    localName x = some "collision" ∧ parseCollision c x = .ok (reCollision rd o) := by
  obtain ⟨g, hg, h⟩ := bind_ok h
  obtain ⟨p, hp, h⟩ := bind_ok h
  obtain rfl := Except.ok.inj h
  obtain ⟨n1, l1⟩ := add_loop (f := collisionStep c) hg (b := ⟨none, none⟩) (g := fun o => ⟨o.map (reGeom rd), none⟩) rfl fun a x hx => by
    obtain ⟨h1, h2⟩ := geom_round R hx
    refine ⟨not_noise h1, ?_⟩
    simp [collisionStep, h1, h2, Bind.bind, Except.bind]
  obtain ⟨n2, l2⟩ := add_loop (f := collisionStep c) hp (b := ⟨o.geometry.map (reGeom rd), none⟩)
      (g := fun p => ⟨o.geometry.map (reGeom rd), p.map (rePose rd)⟩) rfl fun a x hx => by
    obtain ⟨h1, h2⟩ := pose_round R hx
    refine ⟨not_noise h1, ?_⟩
    simp [collisionStep, h1, h2, Bind.bind, Except.bind]
  refine ⟨rfl, ?_⟩
  unfold parseCollision
  rw [children_elems (forall_app n1 n2)]
  exact foldlM_app l1 l2

lemma color_round (R : Reads c rd) {k : ℝ × ℝ × ℝ × ℝ} {x : Xml} (h : colorXml c k = .ok x) :
    localName x = some "color" ∧ parseColor c x = .ok (rd k.1, rd k.2.1, rd k.2.2.1, rd k.2.2.2) := by
  obtain ⟨a, ha, h⟩ := bind_ok h
  obtain rfl := Except.ok.inj h
  refine ⟨rfl, ?_⟩
  simp only [parseColor, getAttribute, setAttr_lookup ha, textOf, if_true, Option.some_or, Option.getD_some]
  rw [show (Except.ok (pyJoin ([k.1, k.2.1, k.2.2.1, k.2.2.2].map (pfloat c))) >>= fun s => floats c s >>= _) = _ from rfl]
  simp only [Bind.bind, Except.bind]
  rw [show floats c (pyJoin ([k.1, k.2.1, k.2.2.1, k.2.2.2].map (pfloat c))) = _ from floats_join R _]
  rfl

lemma material_round (R : Reads c rd) {o : XMaterial} {x : Xml} (h : materialXml c o = .ok x) :
    localName x = some "material" ∧ parseMaterial c x = .ok (reMaterial rd o) := by
  obtain ⟨a, ha, h⟩ := bind_ok h
  obtain ⟨k, hk, h⟩ := bind_ok h
  obtain ⟨t, ht, h⟩ := bind_ok h
  obtain rfl := Except.ok.inj h
  obtain ⟨n1, l1⟩ := add_loop (f := materialStep c) hk (b := ⟨o.name.map reStr, none, none⟩)
      (g := fun k => ⟨o.name.map reStr, k.map fun x => (rd x.1, rd x.2.1, rd x.2.2.1, rd x.2.2.2), none⟩) rfl fun a x hx => by
    obtain ⟨h1, h2⟩ := color_round R hx
    refine ⟨not_noise h1, ?_⟩
    simp [materialStep, h1, h2, Bind.bind, Except.bind]
  obtain ⟨n2, l2⟩ := add_loop (f := materialStep c) ht
      (b := ⟨o.name.map reStr, o.color.map fun x => (rd x.1, rd x.2.1, rd x.2.2.1, rd x.2.2.2), none⟩)
      (g := fun s => ⟨o.name.map reStr, o.color.map fun x => (rd x.1, rd x.2.1, rd x.2.2.1, rd x.2.2.2), s.map reStr⟩) rfl fun a x hx => by
    obtain rfl := Except.ok.inj hx
    exact ⟨rfl, by simp [materialStep, localName, getAttribute, Bind.bind, Except.bind, reStr]⟩
  refine ⟨rfl, ?_⟩
  unfold parseMaterial
  rw [children_elems (forall_app n1 n2), ifAttribute_str (c := c) (v := o.name) (by simp [setAttr_lookup ha])]
  exact foldlM_app l1 l2

lemma visual_round (R : Reads c rd) {o : XVisual} {x : Xml} (h : visualXml c o = .ok x) :
    localName x = some "visual" ∧ parseVisual c x = .ok (reVisual rd o) := by
  obtain ⟨g, hg, h⟩ := bind_ok h
  obtain ⟨p, hp, h⟩ := bind_ok h
  obtain ⟨m, hm, h⟩ := bind_ok h
  obtain rfl := Except.ok.inj h
  obtain ⟨n1, l1⟩ := add_loop (f := visualStep c) hg (b := ⟨none, none, none⟩) (g := fun o => ⟨o.map (reGeom rd), none, none⟩) rfl fun a x hx => by
    obtain ⟨h1, h2⟩ := geom_round R hx
    refine ⟨not_noise h1, ?_⟩
    simp [visualStep, h1, h2, Bind.bind, Except.bind]
  obtain ⟨n2, l2⟩ := add_loop (f := visualStep c) hp (b := ⟨o.geometry.map (reGeom rd), none, none⟩)
      (g := fun p => ⟨o.geometry.map (reGeom rd), none, p.map (rePose rd)⟩) rfl fun a x hx => by
    obtain ⟨h1, h2⟩ := pose_round R hx
    refine ⟨not_noise h1, ?_⟩
    simp [visualStep, h1, h2, Bind.bind, Except.bind]
  obtain ⟨n3, l3⟩ := add_loop (f := visualStep c) hm (b := ⟨o.geometry.map (reGeom rd), none, o.origin.map (rePose rd)⟩)
      (g := fun m => ⟨o.geometry.map (reGeom rd), m.map (reMaterial rd), o.origin.map (rePose rd)⟩) rfl fun a x hx => by
    obtain ⟨h1, h2⟩ := material_round R hx
    refine ⟨not_noise h1, ?_⟩
    simp [visualStep, h1, h2, Bind.bind, Except.bind]
  refine ⟨rfl, ?_⟩
  unfold parseVisual
  rw [children_elems (forall_app (forall_app n1 n2) n3)]
  exact foldlM_app (foldlM_app l1 l2) l3

lemma inertial_round (R : Reads c rd) {o : UInertial} {x : Xml} (h : inertialXml c o = .ok x) :
    localName x = some "inertial" ∧ parseInertial c x = .ok (reInertial rd o) := by
  obtain ⟨m, hm, h⟩ := bind_ok h
  obtain ⟨a1, h1, h⟩ := bind_ok h
  obtain ⟨a2, h2, h⟩ := bind_ok h
  obtain ⟨a3, h3, h⟩ := bind_ok h
  obtain ⟨a4, h4, h⟩ := bind_ok h
  obtain ⟨a5, h5, h⟩ := bind_ok h
  obtain ⟨a6, h6, h⟩ := bind_ok h
  obtain ⟨p, hp, h⟩ := bind_ok h
  obtain rfl := Except.ok.inj h
  obtain ⟨am, hm', hm⟩ := bind_ok hm
  obtain rfl := Except.ok.inj hm
  have em : am.lookup "value" = some (pfloat c o.mass) := by simp [setAttr_lookup hm', textOf]
  have e1 : a6.lookup "ixx" = some (pfloat c o.ixx) := by
    simp [setAttr_lookup h6, setAttr_lookup h5, setAttr_lookup h4, setAttr_lookup h3, setAttr_lookup h2, setAttr_lookup h1, textOf]
  have e2 : a6.lookup "ixy" = some (pfloat c o.ixy) := by
    simp [setAttr_lookup h6, setAttr_lookup h5, setAttr_lookup h4, setAttr_lookup h3, setAttr_lookup h2, textOf]
  have e3 : a6.lookup "ixz" = some (pfloat c o.ixz) := by
    simp [setAttr_lookup h6, setAttr_lookup h5, setAttr_lookup h4, setAttr_lookup h3, textOf]
  have e4 : a6.lookup "iyy" = some (pfloat c o.iyy) := by simp [setAttr_lookup h6, setAttr_lookup h5, setAttr_lookup h4, textOf]
  have e5 : a6.lookup "iyz" = some (pfloat c o.iyz) := by simp [setAttr_lookup h6, setAttr_lookup h5, textOf]
  have e6 : a6.lookup "izz" = some (pfloat c o.izz) := by simp [setAttr_lookup h6, textOf]
  obtain ⟨n2, l2⟩ := add_loop (f := inertialStep c) hp (b := ⟨rd o.ixx, rd o.ixy, rd o.ixz, rd o.iyy, rd o.iyz, rd o.izz, rd o.mass, none⟩)
      (g := fun p => ⟨rd o.ixx, rd o.ixy, rd o.ixz, rd o.iyy, rd o.iyz, rd o.izz, rd o.mass, p.map (rePose rd)⟩) rfl fun a x hx => by
    obtain ⟨h1, h2⟩ := pose_round R hx
    refine ⟨not_noise h1, ?_⟩
    simp [inertialStep, h1, h2, Bind.bind, Except.bind]
  refine ⟨rfl, ?_⟩
  unfold parseInertial
  rw [children_elems (forall_app (by simp [Xml.isNoise]) n2)]
  refine foldlM_app (b' := ⟨rd o.ixx, rd o.ixy, rd o.ixz, rd o.iyy, rd o.iyz, rd o.izz, rd o.mass, none⟩) ?_ l2
  simp only [List.foldlM_cons, List.foldlM_nil, inertialStep, localName]
  simp [floatAttr_num R em, floatAttr_num R e1, floatAttr_num R e2, floatAttr_num R e3, floatAttr_num R e4, floatAttr_num R e5, floatAttr_num R e6,
    Bind.bind, Except.bind, Pure.pure, Except.pure]

lemma link_round (R : Reads c rd) {o : XLink} {x : Xml} (h : linkXml c o = .ok x) :
    localName x = some "link" ∧ parseLink c x = .ok (reLink rd o) := by
  obtain ⟨v, hv, h⟩ := bind_ok h
  obtain ⟨k, hk, h⟩ := bind_ok h
  obtain ⟨i, hi, h⟩ := bind_ok h
  obtain rfl := Except.ok.inj h
  obtain ⟨n1, l1⟩ := add_loop (f := linkStep c) hv (b := ⟨reStr o.name, none, none, none⟩)
      (g := fun v => ⟨reStr o.name, v.map (reVisual rd), none, none⟩) rfl fun a x hx => by
    obtain ⟨h1, h2⟩ := visual_round R hx
    refine ⟨not_noise h1, ?_⟩
    simp [linkStep, h1, h2, Bind.bind, Except.bind]
  obtain ⟨n2, l2⟩ := add_loop (f := linkStep c) hk (b := ⟨reStr o.name, o.visual.map (reVisual rd), none, none⟩)
      (g := fun k => ⟨reStr o.name, o.visual.map (reVisual rd), none, k.map (reCollision rd)⟩) rfl fun a x hx => by
    obtain ⟨h1, h2⟩ := collision_round R hx
    refine ⟨not_noise h1, ?_⟩
    simp [linkStep, h1, h2, Bind.bind, Except.bind]
  obtain ⟨n3, l3⟩ := add_loop (f := linkStep c) hi (b := ⟨reStr o.name, o.visual.map (reVisual rd), none, o.collision.map (reCollision rd)⟩)
      (g := fun i => ⟨reStr o.name, o.visual.map (reVisual rd), i.map (reInertial rd), o.collision.map (reCollision rd)⟩) rfl fun a x hx => by
    obtain ⟨h1, h2⟩ := inertial_round R hx
    refine ⟨not_noise h1, ?_⟩
    simp [linkStep, h1, h2, Bind.bind, Except.bind]
  refine ⟨rfl, ?_⟩
  unfold parseLink
  rw [children_elems (forall_app (forall_app n1 n2) n3)]
  simp only [getAttribute, List.lookup_cons, beq_self_eq_true, Option.getD_some]
  exact foldlM_app (foldlM_app l1 l2) l3

lemma dynamics_round {o : XDynamics} {x : Xml} (h : dynamicsXml c o = .ok x) :
    localName x = some "dynamics" ∧ parseDynamics x = .ok ⟨asText c o.damping, asText c o.friction⟩ := by
  obtain ⟨a, ha, h⟩ := bind_ok h
  obtain ⟨b, hb, h⟩ := bind_ok h
  obtain rfl := Except.ok.inj h
  refine ⟨rfl, ?_⟩
  unfold parseDynamics
  obtain ⟨s, h1, e1⟩ := ifAttribute_text (c := c) (n := "damping") (t := "dynamics") (a := b) (k := []) (v := o.damping)
    (by simp [setAttr_lookup hb, setAttr_lookup ha])
  obtain ⟨s', h2, e2⟩ := ifAttribute_text (c := c) (n := "friction") (t := "dynamics") (a := b) (k := []) (v := o.friction)
    (by simp [setAttr_lookup hb, setAttr_lookup ha])
  rw [h1, h2, ← e1, ← e2]
  rfl

lemma calibration_round (R : Reads c rd) {o : XCalibration} {x : Xml} (h : calibrationXml c o = .ok x) :
    localName x = some "calibration" ∧ parseCalibration c x = .ok ⟨o.rising.map rd, o.falling.map rd⟩ := by
  obtain ⟨a, ha, h⟩ := bind_ok h
  obtain ⟨b, hb, h⟩ := bind_ok h
  obtain rfl := Except.ok.inj h
  refine ⟨rfl, ?_⟩
  unfold parseCalibration
  rw [ifAttribute_num R (v := o.rising) (by simp [setAttr_lookup hb, setAttr_lookup ha]),
    ifAttribute_num R (v := o.falling) (by simp [setAttr_lookup hb, setAttr_lookup ha])]
  rfl

lemma limit_round (R : Reads c rd) {o : ULimit} {x : Xml} (h : limitXml c o = .ok x) :
    localName x = some "limit" ∧ parseLimit c x = .ok (reLimit rd o) := by
  obtain ⟨a1, h1, h⟩ := bind_ok h
  obtain ⟨a2, h2, h⟩ := bind_ok h
  obtain ⟨a3, h3, h⟩ := bind_ok h
  obtain ⟨a4, h4, h⟩ := bind_ok h
  obtain rfl := Except.ok.inj h
  refine ⟨rfl, ?_⟩
  unfold parseLimit
  rw [floatAttr_num R (x := o.effort) (by simp [setAttr_lookup h4, setAttr_lookup h3, setAttr_lookup h2, setAttr_lookup h1, textOf]),
    floatAttr_num R (x := o.velocity) (by simp [setAttr_lookup h4, setAttr_lookup h3, setAttr_lookup h2, setAttr_lookup h1, textOf]),
    ifAttribute_num R (v := o.lower) (by simp [setAttr_lookup h4, setAttr_lookup h3, setAttr_lookup h2, setAttr_lookup h1]),
    ifAttribute_num R (v := o.upper) (by simp [setAttr_lookup h4, setAttr_lookup h3, setAttr_lookup h2, setAttr_lookup h1])]
  rfl

lemma safety_round (R : Reads c rd) {o : XSafety} {x : Xml} (h : safetyXml c o = .ok x) :
    localName x = some "safety_controller" ∧ parseSafety c x = .ok ⟨rd o.velocity, o.position.map rd, o.lower.map rd, o.upper.map rd⟩ := by
  obtain ⟨a1, h1, h⟩ := bind_ok h
  obtain ⟨a2, h2, h⟩ := bind_ok h
  obtain ⟨a3, h3, h⟩ := bind_ok h
  obtain ⟨a4, h4, h⟩ := bind_ok h
  obtain rfl := Except.ok.inj h
  refine ⟨rfl, ?_⟩
  unfold parseSafety
  rw [floatAttr_num R (x := o.velocity) (by simp [setAttr_lookup h4, setAttr_lookup h3, setAttr_lookup h2, setAttr_lookup h1, textOf]),
    ifAttribute_num R (v := o.lower) (by simp [setAttr_lookup h4, setAttr_lookup h3, setAttr_lookup h2, setAttr_lookup h1]),
    ifAttribute_num R (v := o.upper) (by simp [setAttr_lookup h4, setAttr_lookup h3, setAttr_lookup h2, setAttr_lookup h1]),
    ifAttribute_num R (v := o.position) (by simp [setAttr_lookup h4, setAttr_lookup h3, setAttr_lookup h2, setAttr_lookup h1])]
  rfl

lemma short_link {t : String} {v : Option PyStr} {x : Xml} (h : short c t "link" (optStr v) = .ok x) :
    localName x = some t ∧ getAttribute "link" x = .ok (reOptStr v).chars := by
  obtain ⟨a, ha, h⟩ := bind_ok h
  obtain rfl := Except.ok.inj h
  refine ⟨rfl, ?_⟩
  simp only [getAttribute, setAttr_lookup ha]
  cases v <;> simp [optStr, PVal.ofOpt, textOf, reOptStr, reStr, PyStr.chars]

lemma axis_round {v : PVal} {l : List Xml} (h : axisXml c v = .ok l) {b : XJoint} (hb : b.axis = .none) :
    (∀ k ∈ l, k.isNoise = false) ∧ l.foldlM (jointStep c) b = .ok { b with axis := asText c v } := by
  have key : ∀ {v : PVal} {s : String}, textOf c v = some s → asText c v = .str (.uni s) → (do let x ← short c "axis" "xyz" v; .ok [x] : Except PyErr (List Xml)) = .ok l →
      (∀ k ∈ l, k.isNoise = false) ∧ l.foldlM (jointStep c) b = .ok { b with axis := asText c v } := by
    intro v s hs he h
    obtain ⟨x, hx, h⟩ := bind_ok h
    obtain rfl := Except.ok.inj h
    obtain ⟨a, ha, hx⟩ := bind_ok hx
    obtain rfl := Except.ok.inj hx
    refine ⟨by simp [Xml.isNoise], ?_⟩
    simp [jointStep, localName, getAttribute, setAttr_lookup ha, hs, he, Bind.bind, Except.bind, Pure.pure, Except.pure]
  cases v with
  | none =>
    obtain rfl := Except.ok.inj h
    refine ⟨by simp, ?_⟩
    rw [List.foldlM_nil]
    simp only [asText, ← hb]; rfl
  | str s => exact key rfl rfl h
  | num x => exact key rfl rfl h
  | nums l => exact key rfl rfl h

lemma joint_round (R : Reads c rd) {o : XJoint} {x : Xml} (h : jointXml c o = .ok x) :
    localName x = some "joint" ∧ parseJoint c x = .ok (reJoint c rd o) := by
  obtain ⟨a1, h1, h⟩ := bind_ok h
  obtain ⟨a2, h2, h⟩ := bind_ok h
  obtain ⟨p, hp, h⟩ := bind_ok h
  obtain ⟨k, hk, h⟩ := bind_ok h
  obtain ⟨or, ho, h⟩ := bind_ok h
  obtain ⟨ax, hax, h⟩ := bind_ok h
  obtain ⟨li, hli, h⟩ := bind_ok h
  obtain ⟨dy, hdy, h⟩ := bind_ok h
  obtain ⟨sa, hsa, h⟩ := bind_ok h
  obtain ⟨ca, hca, h⟩ := bind_ok h
  obtain rfl := Except.ok.inj h
  obtain ⟨p1, p2⟩ := short_link hp
  obtain ⟨k1, k2⟩ := short_link hk
  have huni : ∀ v, PyStr.uni (reOptStr v).chars = reOptStr v := by intro v; cases v <;> rfl
  set b0 : XJoint := ⟨reStr o.name, some (reOptStr o.parent), some (reOptStr o.child), reStr o.joint_type, .none, none, none, none, none, none, none⟩ with hb0
  obtain ⟨n1, l1⟩ := add_loop (f := jointStep c) ho (b := b0) (g := fun p => { b0 with origin := p.map (rePose rd) }) rfl fun a x hx => by
    obtain ⟨h1, h2⟩ := pose_round R hx
    exact ⟨not_noise h1, by simp [jointStep, h1, h2, Bind.bind, Except.bind]⟩
  obtain ⟨n2, l2⟩ := axis_round hax (b := { b0 with origin := o.origin.map (rePose rd) }) rfl
  set b2 : XJoint := { b0 with origin := o.origin.map (rePose rd), axis := asText c o.axis } with hb2
  obtain ⟨n3, l3⟩ := add_loop (f := jointStep c) hli (b := b2) (g := fun p => { b2 with limits := p.map (reLimit rd) }) rfl fun a x hx => by
    obtain ⟨h1, h2⟩ := limit_round R hx
    exact ⟨not_noise h1, by simp [jointStep, h1, h2, Bind.bind, Except.bind]⟩
  set b3 : XJoint := { b2 with limits := o.limits.map (reLimit rd) } with hb3
  obtain ⟨n4, l4⟩ := add_loop (f := jointStep c) hdy (b := b3)
      (g := fun d => { b3 with dynamics := d.map fun d => ⟨asText c d.damping, asText c d.friction⟩ }) rfl fun a x hx => by
    obtain ⟨h1, h2⟩ := dynamics_round hx
    exact ⟨not_noise h1, by simp [jointStep, h1, h2, Bind.bind, Except.bind]⟩
  set b4 : XJoint := { b3 with dynamics := o.dynamics.map fun d => ⟨asText c d.damping, asText c d.friction⟩ } with hb4
  obtain ⟨n5, l5⟩ := add_loop (f := jointStep c) hsa (b := b4)
      (g := fun s => { b4 with safety := s.map fun s => ⟨rd s.velocity, s.position.map rd, s.lower.map rd, s.upper.map rd⟩ }) rfl fun a x hx => by
    obtain ⟨h1, h2⟩ := safety_round R hx
    exact ⟨not_noise h1, by simp [jointStep, h1, h2, Bind.bind, Except.bind]⟩
  set b5 : XJoint := { b4 with safety := o.safety.map fun s => ⟨rd s.velocity, s.position.map rd, s.lower.map rd, s.upper.map rd⟩ } with hb5
  obtain ⟨n6, l6⟩ := add_loop (f := jointStep c) hca (b := b5)
      (g := fun s => { b5 with calibration := s.map fun x => ⟨x.rising.map rd, x.falling.map rd⟩ }) rfl fun a x hx => by
    obtain ⟨h1, h2⟩ := calibration_round R hx
    exact ⟨not_noise h1, by simp [jointStep, h1, h2, Bind.bind, Except.bind]⟩
  refine ⟨rfl, ?_⟩
  unfold parseJoint
  rw [children_elems (forall_app (forall_app (forall_app (forall_app (forall_app (forall_app
    (by simp [not_noise p1, not_noise k1]) n1) n2) n3) n4) n5) n6)]
  simp only [getAttribute, setAttr_lookup h2, setAttr_lookup h1, textOf, if_true, Option.some_or, Option.getD_some,
    show ("name" = "type") = False by decide, if_false]
  simp only [Bind.bind, Except.bind]
  have l0 : [p, k].foldlM (jointStep c) ⟨.uni o.name.chars, none, none, .uni o.joint_type.chars, .none, none, none, none, none, none, none⟩ = .ok b0 := by
    simp [jointStep, p1, p2, k1, k2, Bind.bind, Except.bind, Pure.pure, Except.pure, huni, hb0, reStr]
  exact foldlM_app (foldlM_app (foldlM_app (foldlM_app (foldlM_app (foldlM_app l0 l1) l2) l3) l4) l5) l6

lemma element_round (R : Reads c rd) {e : XElement} {x : Xml} (h : elementXml c e = .ok x) (es : List XElement) :
    x.isNoise = false ∧ robotStep c es x = .ok (es ++ [reElement c rd e]) := by
  cases e with
  | joint j =>
    obtain ⟨h1, h2⟩ := joint_round R h
    exact ⟨not_noise h1, by simp [robotStep, h1, h2, Bind.bind, Except.bind, reElement]⟩
  | link j =>
    obtain ⟨h1, h2⟩ := link_round R h
    exact ⟨not_noise h1, by simp [robotStep, h1, h2, Bind.bind, Except.bind, reElement]⟩
  | material j =>
    obtain ⟨h1, h2⟩ := material_round R h
    exact ⟨not_noise h1, by simp [robotStep, h1, h2, Bind.bind, Except.bind, reElement]⟩

lemma elements_round (R : Reads c rd) : ∀ (l : List XElement) {xs : List Xml}, l.mapM (elementXml c) = .ok xs →
    ∀ es, (∀ k ∈ xs, k.isNoise = false) ∧ xs.foldlM (robotStep c) es = .ok (es ++ l.map (reElement c rd)) := by
  intro l
  induction l with
  | nil =>
    intro xs h es
    obtain rfl := Except.ok.inj h
    exact ⟨by simp, by simp [List.foldlM, Pure.pure, Except.pure]⟩
  | cons e l ih =>
    intro xs h es
    rw [List.mapM_cons] at h
    obtain ⟨x, hx, h⟩ := bind_ok h
    obtain ⟨ys, hy, h⟩ := bind_ok h
    obtain rfl := Except.ok.inj h
    obtain ⟨h1, h2⟩ := element_round R hx es
    obtain ⟨h3, h4⟩ := ih hy (es ++ [reElement c rd e])
    refine ⟨by simpa [h1] using h3, ?_⟩
    rw [List.foldlM_cons, h2]
    refine Eq.trans (show _ = List.foldlM (robotStep c) (es ++ [reElement c rd e]) ys from rfl) ?_
    simpa [List.append_assoc] using h4

lemma robot_round (R : Reads c rd) {r : URDF} {doc : List Xml} (h : robotXml c r = .ok doc) : parseDoc c doc = .ok (reread c rd r) := by
  obtain ⟨xs, hx, h⟩ := bind_ok h
  obtain rfl := Except.ok.inj h
  obtain ⟨h1, h2⟩ := elements_round R r.elements hx []
  unfold parseDoc
  simp only [List.filter_cons, Xml.isNoise, Bool.not_false, if_true, List.filter_nil]
  rw [children_elems h1, h2]
  rfl

end Arboris.UrdfXml
