import Verif.Proofs.UrdfRound

/-! # Which robots can be written, and which are kept -/

namespace Arboris.UrdfXml
open Urdf Spec

/-! ### errors of `to_xml` -/

/-- success if `P`, `UnicodeEncodeError` otherwise -/
def Outcome {α : Type} (P : Prop) (e : Except PyErr α) : Prop := (P → ∃ a, e = .ok a) ∧ (¬ P → e = .error .unicodeError)

lemma Outcome.ok {α : Type} (a : α) : Outcome True (Except.ok a : Except PyErr α) := ⟨fun _ => ⟨a, rfl⟩, fun h => absurd trivial h⟩

lemma Outcome.bind {α β : Type} {P Q : Prop} {e : Except PyErr α} {f : α → Except PyErr β} (h : Outcome P e) (h' : ∀ a, Outcome Q (f a)) :
    Outcome (P ∧ Q) (e >>= f) := by
  constructor
  · rintro ⟨hp, hq⟩
    obtain ⟨a, rfl⟩ := h.1 hp
    exact (h' a).1 hq
  · intro hn
    by_cases hp : P
    · obtain ⟨a, rfl⟩ := h.1 hp
      exact (h' a).2 fun hq => hn ⟨hp, hq⟩
    · rw [h.2 hp]; rfl

lemma Outcome.congr {α : Type} {P Q : Prop} {e : Except PyErr α} (h : Outcome P e) (hpq : P ↔ Q) : Outcome Q e :=
  ⟨fun hq => h.1 (hpq.mpr hq), fun hq => h.2 fun hp => hq (hpq.mp hp)⟩

/-- all the strings can be converted -/
def Enc (l : List PyStr) : Prop := ∀ s ∈ l, Convertible s

lemma enc_append (l l' : List PyStr) : Enc (l ++ l') ↔ Enc l ∧ Enc l' := by simp [Enc, or_imp, forall_and]
lemma enc_nil : Enc [] ↔ True := by simp [Enc]

variable {c : Codec}

lemma setAttr_outcome (n : String) (v : PVal) (a : Attrs) : Outcome (Enc (strOf v)) (setAttr c n v a) := by
  cases v with
  | none => exact (Outcome.ok _).congr (by simp [strOf, Enc])
  | num x => exact (Outcome.ok _).congr (by simp [strOf, Enc])
  | nums l => exact (Outcome.ok _).congr (by simp [strOf, Enc])
  | str s =>
    cases s with
    | bytes s => exact (Outcome.ok _).congr (by simp [strOf, Enc, Convertible])
    | uni s =>
      refine ⟨fun h => ?_, fun h => ?_⟩
      · have : isAscii s = true := h (.uni s) (by simp [strOf])
        exact ⟨dictSet a n s, by simp only [setAttr, this, if_true]⟩
      · have : ¬ isAscii s = true := fun e => h (by simpa [strOf, Enc, Convertible] using e)
        simp only [setAttr, if_neg this]

lemma short_outcome (n k : String) (v : PVal) : Outcome (Enc (strOf v)) (short c n k v) :=
  ((setAttr_outcome k v []).bind fun _ => Outcome.ok _).congr (by simp)

lemma add_outcome {α : Type} {f : α → Except PyErr Xml} {t : α → List PyStr} (h : ∀ a, Outcome (Enc (t a)) (f a)) (o : Option α) :
    Outcome (Enc (o.toList.flatMap t)) (add f o) := by
  cases o with
  | none => exact (Outcome.ok _).congr (by simp [Enc])
  | some a => exact ((h a).bind fun _ => Outcome.ok _).congr (by simp)

lemma pose_outcome (p : UPose) : Outcome (Enc []) (poseXml c p) := by
  refine ((setAttr_outcome _ _ _).bind fun _ => (setAttr_outcome _ _ _).bind fun _ => Outcome.ok _).congr ?_
  cases p.position <;> cases p.rotation <;> simp [PVal.ofOpt, strOf, enc_nil]

lemma add_pose_outcome (p : Option UPose) : Outcome True (add (poseXml c) p) :=
  (add_outcome pose_outcome p).congr (by cases p <;> simp [Enc])

lemma geom_outcome (g : XGeom) : Outcome (Enc (geomTexts g)) (geomXml c g) := by
  cases g with
  | box d =>
    obtain ⟨x, y, z⟩ := d
    exact ((setAttr_outcome _ _ _).bind fun _ => Outcome.ok _).congr (by simp [strOf, geomTexts])
  | cylinder r l =>
    exact ((setAttr_outcome _ _ _).bind fun _ => (setAttr_outcome _ _ _).bind fun _ => Outcome.ok _).congr (by simp [strOf, geomTexts])
  | sphere r => exact ((setAttr_outcome _ _ _).bind fun _ => Outcome.ok _).congr (by simp [strOf, geomTexts])
  | mesh fn s =>
    refine ((setAttr_outcome _ _ _).bind fun _ => (setAttr_outcome _ _ _).bind fun _ => Outcome.ok _).congr ?_
    cases fn <;> cases s <;> simp [PVal.ofOpt, strOf, geomTexts, enc_nil]

lemma collision_outcome (o : XCollision) : Outcome (Enc (o.geometry.toList.flatMap geomTexts)) (collisionXml c o) :=
  ((add_outcome geom_outcome _).bind fun _ => (add_pose_outcome _).bind fun _ => Outcome.ok _).congr (by simp)

lemma color_outcome (x : ℝ × ℝ × ℝ × ℝ) : Outcome (Enc []) (colorXml c x) :=
  ((setAttr_outcome _ _ _).bind fun _ => Outcome.ok _).congr (by simp [strOf])

lemma material_outcome (o : XMaterial) : Outcome (Enc (materialTexts o)) (materialXml c o) := by
  refine ((setAttr_outcome _ _ _).bind fun _ => (add_outcome color_outcome _).bind fun _ =>
    (add_outcome (f := textureXml) (t := fun _ => []) (fun s => (Outcome.ok _).congr (by simp [Enc])) _).bind fun _ => Outcome.ok _).congr ?_
  have hn : ∀ {α : Type} (l : Option α), Enc (l.toList.flatMap fun _ => []) ↔ True := by intro α l; cases l <;> simp [Enc]
  rw [hn, hn]
  cases h : o.name <;> simp [PVal.ofOpt, strOf, materialTexts, h]

lemma visual_outcome (o : XVisual) :
    Outcome (Enc (o.geometry.toList.flatMap geomTexts ++ o.material.toList.flatMap materialTexts)) (visualXml c o) :=
  ((add_outcome geom_outcome _).bind fun _ => (add_pose_outcome _).bind fun _ => (add_outcome material_outcome _).bind fun _ => Outcome.ok _).congr
    (by rw [enc_append]; simp)

lemma inertial_outcome (o : UInertial) : Outcome (Enc []) (inertialXml c o) :=
  ((short_outcome _ _ _).bind fun _ => (setAttr_outcome _ _ _).bind fun _ => (setAttr_outcome _ _ _).bind fun _ => (setAttr_outcome _ _ _).bind fun _ =>
    (setAttr_outcome _ _ _).bind fun _ => (setAttr_outcome _ _ _).bind fun _ => (setAttr_outcome _ _ _).bind fun _ =>
      (add_pose_outcome _).bind fun _ => Outcome.ok _).congr (by simp [strOf])

lemma link_outcome (o : XLink) : Outcome (Enc (linkTexts o)) (linkXml c o) :=
  ((add_outcome visual_outcome _).bind fun _ => (add_outcome collision_outcome _).bind fun _ =>
    (add_outcome inertial_outcome o.inertial).bind fun _ => Outcome.ok _).congr (by
      rw [linkTexts, enc_append]; cases o.inertial <;> simp [Enc])

lemma dynamics_outcome (o : XDynamics) : Outcome (Enc (strOf o.damping ++ strOf o.friction)) (dynamicsXml c o) :=
  ((setAttr_outcome _ _ _).bind fun _ => (setAttr_outcome _ _ _).bind fun _ => Outcome.ok _).congr (by rw [enc_append]; simp)

lemma strOf_num (v : Option ℝ) : Enc (strOf (.ofOpt .num v)) ↔ True := by cases v <;> simp [PVal.ofOpt, strOf, enc_nil]

lemma strOf_one (x : ℝ) : Enc (strOf (.num x)) ↔ True := by simp [strOf, enc_nil]

lemma calibration_outcome (o : XCalibration) : Outcome (Enc []) (calibrationXml c o) :=
  ((setAttr_outcome _ _ _).bind fun _ => (setAttr_outcome _ _ _).bind fun _ => Outcome.ok _).congr (by simp [strOf_num, enc_nil])

lemma limit_outcome (o : ULimit) : Outcome (Enc []) (limitXml c o) :=
  ((setAttr_outcome _ _ _).bind fun _ => (setAttr_outcome _ _ _).bind fun _ => (setAttr_outcome _ _ _).bind fun _ =>
    (setAttr_outcome _ _ _).bind fun _ => Outcome.ok _).congr (by simp [strOf_num, enc_nil, strOf_one])

lemma safety_outcome (o : XSafety) : Outcome (Enc []) (safetyXml c o) :=
  ((setAttr_outcome _ _ _).bind fun _ => (setAttr_outcome _ _ _).bind fun _ => (setAttr_outcome _ _ _).bind fun _ =>
    (setAttr_outcome _ _ _).bind fun _ => Outcome.ok _).congr (by simp [strOf_num, enc_nil, strOf_one])

lemma axis_outcome (v : PVal) : Outcome (Enc (strOf v)) (axisXml c v) := by
  cases v with
  | none => exact (Outcome.ok _).congr (by simp [strOf, enc_nil])
  | str s => exact ((short_outcome _ _ _).bind fun _ => Outcome.ok _).congr (by simp)
  | num x => exact ((short_outcome _ _ _).bind fun _ => Outcome.ok _).congr (by simp)
  | nums l => exact ((short_outcome _ _ _).bind fun _ => Outcome.ok _).congr (by simp)

lemma add_plain_outcome {α : Type} {f : α → Except PyErr Xml} (h : ∀ a, Outcome (Enc []) (f a)) (o : Option α) : Outcome True (add f o) :=
  (add_outcome (t := fun _ => []) h o).congr (by cases o <;> simp [Enc])

lemma strOf_opt (v : Option PyStr) : strOf (optStr v) = v.toList := by cases v <;> rfl

lemma joint_outcome (o : XJoint) : Outcome (Enc (jointTexts o)) (jointXml c o) :=
  ((setAttr_outcome _ _ _).bind fun _ => (setAttr_outcome _ _ _).bind fun _ => (short_outcome _ _ _).bind fun _ => (short_outcome _ _ _).bind fun _ =>
    (add_pose_outcome _).bind fun _ => (axis_outcome _).bind fun _ => (add_plain_outcome limit_outcome _).bind fun _ =>
      (add_outcome dynamics_outcome _).bind fun _ => (add_plain_outcome safety_outcome _).bind fun _ =>
        (add_plain_outcome calibration_outcome _).bind fun _ => Outcome.ok _).congr (by
    rw [jointTexts, show [o.name, o.joint_type] = [o.name] ++ [o.joint_type] from rfl]
    simp only [enc_append, strOf_opt]
    simp only [strOf]
    tauto)

lemma element_outcome (e : XElement) : Outcome (Enc (texts e)) (elementXml c e) := by
  cases e with
  | joint j => exact joint_outcome j
  | link l => exact link_outcome l
  | material m => exact material_outcome m

lemma elements_outcome (l : List XElement) : Outcome (∀ e ∈ l, Enc (texts e)) (l.mapM (elementXml c)) := by
  induction l with
  | nil => exact (Outcome.ok []).congr (by simp)
  | cons e l ih =>
    rw [List.mapM_cons]
    exact ((element_outcome e).bind fun _ => ih.bind fun _ => Outcome.ok _).congr (by simp)

lemma robot_outcome (r : URDF) : Outcome (∀ e ∈ r.elements, ∀ s ∈ texts e, Convertible s) (robotXml c r) :=
  ((elements_outcome r.elements).bind fun _ => Outcome.ok _).congr (by simp [Enc])

/-! ### what is read is kept -/

variable {rd : ℝ → ℝ}

lemma foldlM_inv {α β : Type} {f : β → α → Except PyErr β} {I : β → Prop} (h : ∀ b a b', I b → f b a = .ok b' → I b') :
    ∀ (l : List α) {b b' : β}, I b → l.foldlM f b = .ok b' → I b' := by
  intro l
  induction l with
  | nil => intro b b' hb e; obtain rfl := Except.ok.inj e; exact hb
  | cons a l ih =>
    intro b b' hb e
    rw [List.foldlM_cons] at e
    obtain ⟨b1, h1, e⟩ := bind_ok e
    exact ih (h b a b1 hb h1) e

def IsUni : PyStr → Prop
  | .uni _ => True
  | .bytes _ => False

lemma reStr_uni {s : PyStr} (h : IsUni s) : reStr s = s := by cases s <;> simp_all [IsUni, reStr, PyStr.chars]

lemma map_kept {α : Type} {f : α → α} {o : Option α} (h : ∀ a ∈ o, f a = a) : o.map f = o := by
  cases o with
  | none => rfl
  | some a => rw [Option.map_some, h a rfl]

lemma floats_kept (E : Exact c rd) {s : String} {l : List ℝ} (h : floats c s = .ok l) : l.map rd = l := by
  unfold floats at h
  generalize pySplit s = ws at h
  induction ws generalizing l with
  | nil => obtain rfl := Except.ok.inj h; rfl
  | cons w ws ih =>
    rw [List.mapM_cons] at h
    obtain ⟨x, hx, h⟩ := bind_ok h
    obtain ⟨ys, hy, h⟩ := bind_ok h
    obtain rfl := Except.ok.inj h
    have : rd x = x := by
      unfold float at hx
      split at hx
      · rename_i y hy; obtain rfl := Except.ok.inj hx; exact E.read _ _ hy
      · cases hx
    rw [List.map_cons, this, ih hy]

lemma float_kept (E : Exact c rd) {s : String} {x : ℝ} (h : float c s = .ok x) : rd x = x := by
  unfold float at h
  split at h
  · rename_i y hy; obtain rfl := Except.ok.inj h; exact E.read _ _ hy
  · cases h

lemma floatAttr_kept (E : Exact c rd) {n : String} {k : Xml} {x : ℝ} (h : floatAttr c n k = .ok x) : rd x = x := by
  obtain ⟨s, _, h⟩ := bind_ok h
  exact float_kept E h

lemma ifAttribute_inv {α : Type} {n : String} {g : String → Except PyErr α} {k : Xml} {o : Option α} (h : ifAttribute n g k = .ok o) :
    ∀ a ∈ o, ∃ s, g s = .ok a := by
  cases k with
  | elem t at' ks =>
    simp only [ifAttribute] at h
    split at h
    · obtain rfl := Except.ok.inj h; simp
    · rename_i s hs
      obtain ⟨a, ha, h⟩ := bind_ok h
      obtain rfl := Except.ok.inj h
      intro b hb
      obtain rfl := Option.some.inj hb
      exact ⟨s, ha⟩
  | _ => cases h

lemma pose_kept (E : Exact c rd) {n : Xml} {p : UPose} (h : parsePose c n = .ok p) : rePose rd p = p := by
  obtain ⟨a, ha, h⟩ := bind_ok h
  obtain ⟨b, hb, h⟩ := bind_ok h
  obtain rfl := Except.ok.inj h
  simp only [rePose]
  rw [map_kept fun l hl => (ifAttribute_inv ha l hl).elim fun s hs => floats_kept E hs,
    map_kept fun l hl => (ifAttribute_inv hb l hl).elim fun s hs => floats_kept E hs]

lemma fmap_ok {α β : Type} {f : α → β} {e : Except PyErr α} {b : β} (h : f <$> e = .ok b) : ∃ a, e = .ok a ∧ f a = b := by
  cases e with
  | ok a => exact ⟨a, rfl, Except.ok.inj h⟩
  | error e => cases h

lemma geom_kept (E : Exact c rd) {n : Xml} {o : Option XGeom} (h : parseGeom c n = .ok o) : ∀ g ∈ o, ScaleGiven g → reGeom rd g = g := by
  unfold parseGeom at h
  split at h
  · cases h
  · rename_i k l _
    intro g hg hs
    obtain rfl := hg
    split at h
    · replace h := fmap_ok (e := parseBox c k) h; obtain ⟨g', h, e⟩ := h; obtain rfl := Option.some.inj e
      obtain ⟨s, _, h⟩ := bind_ok h
      obtain ⟨l, hl, h⟩ := bind_ok h
      split at h
      · rename_i x y z tl
        obtain rfl := Except.ok.inj h
        have := floats_kept E hl
        simp only [List.map_cons, List.cons.injEq] at this
        simp only [reGeom, this.1, this.2.1, this.2.2.1]
      · cases h
    split at h
    · replace h := fmap_ok (e := parseCylinder c k) h; obtain ⟨g', h, e⟩ := h; obtain rfl := Option.some.inj e
      obtain ⟨r, _, h⟩ := bind_ok h
      obtain ⟨l, _, h⟩ := bind_ok h
      obtain ⟨x, hx, h⟩ := bind_ok h
      obtain ⟨y, hy, h⟩ := bind_ok h
      obtain rfl := Except.ok.inj h
      simp only [reGeom, float_kept E hx, float_kept E hy]
    split at h
    · replace h := fmap_ok (e := parseSphere c k) h; obtain ⟨g', h, e⟩ := h; obtain rfl := Option.some.inj e
      obtain ⟨r, _, h⟩ := bind_ok h
      obtain ⟨x, hx, h⟩ := bind_ok h
      obtain rfl := Except.ok.inj h
      simp only [reGeom, float_kept E hx]
    split at h
    · replace h := fmap_ok (e := parseMesh c k) h; obtain ⟨g', h, e⟩ := h; obtain rfl := Option.some.inj e
      obtain ⟨fn, _, h⟩ := bind_ok h
      obtain ⟨s, _, h⟩ := bind_ok h
      split at h
      · obtain rfl := Except.ok.inj h; rfl
      · obtain ⟨l, hl, h⟩ := bind_ok h
        obtain rfl := Except.ok.inj h
        have := floats_kept E hl
        cases l with
        | nil => exact absurd rfl hs
        | cons x l =>
          simp only [List.map_cons, List.cons.injEq] at this
          simp only [reGeom, this.1, this.2, reOptStr, reStr, PyStr.chars]
    · cases h

/-- kept if the scale is given -/
def KeptGeom (rd : ℝ → ℝ) (o : Option XGeom) : Prop := ∀ g ∈ o, ScaleGiven g → reGeom rd g = g

lemma collision_kept (E : Exact c rd) {n : Xml} {o : XCollision} (h : parseCollision c n = .ok o) :
    KeptGeom rd o.geometry ∧ ∀ p ∈ o.origin, rePose rd p = p := by
  refine foldlM_inv (I := fun o : XCollision => KeptGeom rd o.geometry ∧ ∀ p ∈ o.origin, rePose rd p = p) ?_ _ ⟨by simp [KeptGeom], by simp⟩ h
  rintro b k b' ⟨h1, h2⟩ e
  unfold collisionStep at e
  split at e
  · obtain ⟨g, hg, e⟩ := bind_ok e; obtain rfl := Except.ok.inj e
    exact ⟨geom_kept E hg, h2⟩
  split at e
  · obtain ⟨g, hg, e⟩ := bind_ok e; obtain rfl := Except.ok.inj e
    exact ⟨h1, fun p hp => by obtain rfl := Option.some.inj hp; exact pose_kept E hg⟩
  · obtain rfl := Except.ok.inj e; exact ⟨h1, h2⟩

lemma color_kept (E : Exact c rd) {n : Xml} {x : ℝ × ℝ × ℝ × ℝ} (h : parseColor c n = .ok x) : (rd x.1, rd x.2.1, rd x.2.2.1, rd x.2.2.2) = x := by
  obtain ⟨s, _, h⟩ := bind_ok h
  obtain ⟨l, hl, h⟩ := bind_ok h
  split at h
  · obtain rfl := Except.ok.inj h
    have := floats_kept E hl
    simp only [List.map_cons, List.cons.injEq] at this
    simp only [this.1, this.2.1, this.2.2.1, this.2.2.2.1]
  · cases h

lemma material_kept (E : Exact c rd) {n : Xml} {o : XMaterial} (h : parseMaterial c n = .ok o) : reMaterial rd o = o := by
  obtain ⟨nm, hn, h⟩ := bind_ok h
  refine foldlM_inv (I := fun o : XMaterial => reMaterial rd o = o) ?_ _ ?_ h
  · intro b k b' hb e
    simp only [reMaterial] at hb
    have e1 := congrArg XMaterial.name hb
    have e2 := congrArg XMaterial.color hb
    have e3 := congrArg XMaterial.texture hb
    simp only at e1 e2 e3
    unfold materialStep at e
    split at e
    · obtain ⟨g, hg, e⟩ := bind_ok e; obtain rfl := Except.ok.inj e
      simp only [reMaterial, e1, e3, Option.map_some, color_kept E hg]
    split at e
    · obtain ⟨g, hg, e⟩ := bind_ok e; obtain rfl := Except.ok.inj e
      simp only [reMaterial, e1, e2]; rfl
    · obtain rfl := Except.ok.inj e; exact hb
  · simp only [reMaterial, Option.map_none]
    rw [map_kept fun s hs => ?_]
    obtain ⟨t, ht⟩ := ifAttribute_inv hn s hs
    obtain rfl := Except.ok.inj ht
    rfl

lemma visual_kept (E : Exact c rd) {n : Xml} {o : XVisual} (h : parseVisual c n = .ok o) :
    KeptGeom rd o.geometry ∧ (∀ m ∈ o.material, reMaterial rd m = m) ∧ ∀ p ∈ o.origin, rePose rd p = p := by
  refine foldlM_inv (I := fun o : XVisual => KeptGeom rd o.geometry ∧ (∀ m ∈ o.material, reMaterial rd m = m) ∧ ∀ p ∈ o.origin, rePose rd p = p) ?_ _
    ⟨by simp [KeptGeom], by simp, by simp⟩ h
  rintro b k b' ⟨h1, h2, h3⟩ e
  unfold visualStep at e
  split at e
  · obtain ⟨g, hg, e⟩ := bind_ok e; obtain rfl := Except.ok.inj e
    exact ⟨geom_kept E hg, h2, h3⟩
  split at e
  · obtain ⟨g, hg, e⟩ := bind_ok e; obtain rfl := Except.ok.inj e
    exact ⟨h1, h2, fun p hp => by obtain rfl := Option.some.inj hp; exact pose_kept E hg⟩
  split at e
  · obtain ⟨g, hg, e⟩ := bind_ok e; obtain rfl := Except.ok.inj e
    exact ⟨h1, fun p hp => by obtain rfl := Option.some.inj hp; exact material_kept E hg, h3⟩
  · obtain rfl := Except.ok.inj e; exact ⟨h1, h2, h3⟩

lemma inertial_kept (E : Exact c rd) {n : Xml} {o : UInertial} (h : parseInertial c n = .ok o) : reInertial rd o = o := by
  refine foldlM_inv (I := fun o : UInertial => reInertial rd o = o) ?_ _ ?_ h
  · intro b k b' hb e
    simp only [reInertial] at hb
    have e1 := congrArg UInertial.ixx hb
    have e2 := congrArg UInertial.ixy hb
    have e3 := congrArg UInertial.ixz hb
    have e4 := congrArg UInertial.iyy hb
    have e5 := congrArg UInertial.iyz hb
    have e6 := congrArg UInertial.izz hb
    have e7 := congrArg UInertial.mass hb
    have e8 := congrArg UInertial.origin hb
    simp only at e1 e2 e3 e4 e5 e6 e7 e8
    unfold inertialStep at e
    split at e
    · obtain ⟨x1, h1, e⟩ := bind_ok e
      obtain ⟨x2, h2, e⟩ := bind_ok e
      obtain ⟨x3, h3, e⟩ := bind_ok e
      obtain ⟨x4, h4, e⟩ := bind_ok e
      obtain ⟨x5, h5, e⟩ := bind_ok e
      obtain ⟨x6, h6, e⟩ := bind_ok e
      obtain rfl := Except.ok.inj e
      simp only [reInertial, floatAttr_kept E h1, floatAttr_kept E h2, floatAttr_kept E h3, floatAttr_kept E h4, floatAttr_kept E h5, floatAttr_kept E h6, e7, e8]
    split at e
    · obtain ⟨x1, h1, e⟩ := bind_ok e
      obtain rfl := Except.ok.inj e
      simp only [reInertial, e1, e2, e3, e4, e5, e6, floatAttr_kept E h1, e8]
    split at e
    · obtain ⟨x1, h1, e⟩ := bind_ok e
      obtain rfl := Except.ok.inj e
      simp only [reInertial, e1, e2, e3, e4, e5, e6, e7, Option.map_some, pose_kept E h1]
    · obtain rfl := Except.ok.inj e; exact hb
  · simp only [reInertial, E.zero, Option.map_none]

lemma link_kept (E : Exact c rd) {n : Xml} {o : XLink} (h : parseLink c n = .ok o) (hw : Whole (.link o)) : reLink rd o = o := by
  obtain ⟨nm, hn, h⟩ := bind_ok h
  have key := foldlM_inv (I := fun o : XLink => IsUni o.name ∧
      (∀ v ∈ o.visual, KeptGeom rd v.geometry ∧ (∀ m ∈ v.material, reMaterial rd m = m) ∧ ∀ p ∈ v.origin, rePose rd p = p) ∧
      (∀ i ∈ o.inertial, reInertial rd i = i) ∧ ∀ x ∈ o.collision, KeptGeom rd x.geometry ∧ ∀ p ∈ x.origin, rePose rd p = p) (by
    rintro b k b' ⟨h1, h2, h3, h4⟩ e
    unfold linkStep at e
    split at e
    · obtain ⟨g, hg, e⟩ := bind_ok e; obtain rfl := Except.ok.inj e
      exact ⟨h1, fun p hp => by obtain rfl := Option.some.inj hp; exact visual_kept E hg, h3, h4⟩
    split at e
    · obtain ⟨g, hg, e⟩ := bind_ok e; obtain rfl := Except.ok.inj e
      exact ⟨h1, h2, h3, fun p hp => by obtain rfl := Option.some.inj hp; exact collision_kept E hg⟩
    split at e
    · obtain ⟨g, hg, e⟩ := bind_ok e; obtain rfl := Except.ok.inj e
      exact ⟨h1, h2, fun p hp => by obtain rfl := Option.some.inj hp; exact inertial_kept E hg, h4⟩
    · obtain rfl := Except.ok.inj e; exact ⟨h1, h2, h3, h4⟩) _ (b := ⟨.uni nm, none, none, none⟩) ⟨trivial, by simp, by simp, by simp⟩ h
  obtain ⟨h1, h2, h3, h4⟩ := key
  obtain ⟨w1, w2⟩ := hw
  unfold reLink
  rw [reStr_uni h1, map_kept (f := reVisual rd) fun v hv => ?_, map_kept h3, map_kept (f := reCollision rd) fun x hx => ?_]
  · obtain ⟨k1, k2⟩ := h4 x hx
    unfold reCollision
    rw [map_kept fun g hg => k1 g hg (w2 x hx g hg), map_kept k2]
  · obtain ⟨k1, k2, k3⟩ := h2 v hv
    unfold reVisual
    rw [map_kept fun g hg => k1 g hg (w1 v hv g hg), map_kept k2, map_kept k3]

/-- an attribute read as a string -/
def IsRead : PVal → Prop
  | .none => True
  | .str s => IsUni s
  | _ => False

lemma asText_read {v : PVal} (h : IsRead v) : asText c v = v := by
  cases v with
  | none => rfl
  | str s => exact congrArg PVal.str (reStr_uni h)
  | num x => exact h.elim
  | nums l => exact h.elim

lemma optStr_read {n : String} {k : Xml} {o : Option PyStr} (h : ifAttribute n (fun s => .ok (PyStr.uni s)) k = .ok o) : IsRead (optStr o) := by
  cases o with
  | none => trivial
  | some s =>
    obtain ⟨t, ht⟩ := ifAttribute_inv h s rfl
    obtain rfl := Except.ok.inj ht
    trivial

lemma ifAttribute_kept (E : Exact c rd) {n : String} {k : Xml} {o : Option ℝ} (h : ifAttribute n (float c) k = .ok o) : o.map rd = o :=
  map_kept fun x hx => (ifAttribute_inv h x hx).elim fun _ hs => float_kept E hs

lemma joint_kept (E : Exact c rd) {n : Xml} {o : XJoint} (h : parseJoint c n = .ok o) (hw : Whole (.joint o)) : reJoint c rd o = o := by
  obtain ⟨nm, hn, h⟩ := bind_ok h
  obtain ⟨ty, ht, h⟩ := bind_ok h
  have key := foldlM_inv (I := fun o : XJoint => IsUni o.name ∧ IsUni o.joint_type ∧ (∀ s ∈ o.parent, IsUni s) ∧ (∀ s ∈ o.child, IsUni s) ∧ IsRead o.axis ∧
      o.origin.map (rePose rd) = o.origin ∧ o.limits.map (reLimit rd) = o.limits ∧
      (o.dynamics.map fun d => (⟨asText c d.damping, asText c d.friction⟩ : XDynamics)) = o.dynamics ∧
      (o.safety.map fun s => (⟨rd s.velocity, s.position.map rd, s.lower.map rd, s.upper.map rd⟩ : XSafety)) = o.safety ∧
      (o.calibration.map fun x => (⟨x.rising.map rd, x.falling.map rd⟩ : XCalibration)) = o.calibration) (by
    rintro b k b' ⟨h1, h2, h3, h4, h5, h6, h7, h8, h9, h10⟩ e
    unfold jointStep at e
    split at e
    · obtain ⟨g, hg, e⟩ := bind_ok e; obtain rfl := Except.ok.inj e
      exact ⟨h1, h2, fun s hs => by obtain rfl := Option.some.inj hs; trivial, h4, h5, h6, h7, h8, h9, h10⟩
    split at e
    · obtain ⟨g, hg, e⟩ := bind_ok e; obtain rfl := Except.ok.inj e
      exact ⟨h1, h2, h3, fun s hs => by obtain rfl := Option.some.inj hs; trivial, h5, h6, h7, h8, h9, h10⟩
    split at e
    · obtain ⟨g, hg, e⟩ := bind_ok e; obtain rfl := Except.ok.inj e
      exact ⟨h1, h2, h3, h4, trivial, h6, h7, h8, h9, h10⟩
    split at e
    · obtain ⟨g, hg, e⟩ := bind_ok e; obtain rfl := Except.ok.inj e
      exact ⟨h1, h2, h3, h4, h5, by simp only [Option.map_some, pose_kept E hg], h7, h8, h9, h10⟩
    split at e
    · obtain ⟨g, hg, e⟩ := bind_ok e; obtain rfl := Except.ok.inj e
      refine ⟨h1, h2, h3, h4, h5, h6, ?_, h8, h9, h10⟩
      obtain ⟨x1, k1, hg⟩ := bind_ok hg
      obtain ⟨x2, k2, hg⟩ := bind_ok hg
      obtain ⟨x3, k3, hg⟩ := bind_ok hg
      obtain ⟨x4, k4, hg⟩ := bind_ok hg
      obtain rfl := Except.ok.inj hg
      simp only [Option.map_some, reLimit, floatAttr_kept E k1, floatAttr_kept E k2, ifAttribute_kept E k3, ifAttribute_kept E k4]
    split at e
    · obtain ⟨g, hg, e⟩ := bind_ok e; obtain rfl := Except.ok.inj e
      refine ⟨h1, h2, h3, h4, h5, h6, h7, ?_, h9, h10⟩
      obtain ⟨x1, k1, hg⟩ := bind_ok hg
      obtain ⟨x2, k2, hg⟩ := bind_ok hg
      obtain rfl := Except.ok.inj hg
      simp only [Option.map_some, asText_read (optStr_read k1), asText_read (optStr_read k2)]
    split at e
    · obtain ⟨g, hg, e⟩ := bind_ok e; obtain rfl := Except.ok.inj e
      refine ⟨h1, h2, h3, h4, h5, h6, h7, h8, ?_, h10⟩
      obtain ⟨x1, k1, hg⟩ := bind_ok hg
      obtain ⟨x2, k2, hg⟩ := bind_ok hg
      obtain ⟨x3, k3, hg⟩ := bind_ok hg
      obtain ⟨x4, k4, hg⟩ := bind_ok hg
      obtain rfl := Except.ok.inj hg
      simp only [Option.map_some, floatAttr_kept E k1, ifAttribute_kept E k2, ifAttribute_kept E k3, ifAttribute_kept E k4]
    split at e
    · obtain ⟨g, hg, e⟩ := bind_ok e; obtain rfl := Except.ok.inj e
      refine ⟨h1, h2, h3, h4, h5, h6, h7, h8, h9, ?_⟩
      obtain ⟨x1, k1, hg⟩ := bind_ok hg
      obtain ⟨x2, k2, hg⟩ := bind_ok hg
      obtain rfl := Except.ok.inj hg
      simp only [Option.map_some, ifAttribute_kept E k1, ifAttribute_kept E k2]
    split at e
    · obtain ⟨g, hg, e⟩ := bind_ok e; obtain rfl := Except.ok.inj e
      exact ⟨h1, h2, h3, h4, h5, h6, h7, h8, h9, h10⟩
    · obtain rfl := Except.ok.inj e; exact ⟨h1, h2, h3, h4, h5, h6, h7, h8, h9, h10⟩) _
    (b := ⟨.uni nm, none, none, .uni ty, .none, none, none, none, none, none, none⟩) (⟨trivial, trivial, by simp, by simp, trivial, rfl, rfl, rfl, rfl, rfl⟩) h
  obtain ⟨h1, h2, h3, h4, h5, h6, h7, h8, h9, h10⟩ := key
  obtain ⟨w1, w2, w3⟩ := hw
  unfold reJoint
  rw [reStr_uni h1, reStr_uni h2, asText_read h5, h6, h7, h8, h9, h10]
  obtain ⟨s, hs⟩ := Option.ne_none_iff_exists'.mp w1
  obtain ⟨s', hs'⟩ := Option.ne_none_iff_exists'.mp w2
  rw [hs, hs']
  simp only [reOptStr, reStr_uni (h3 s hs), reStr_uni (h4 s' hs')]
  obtain ⟨⟩ := o
  simp_all

lemma robot_kept (E : Exact c rd) {doc : List Xml} {r : URDF} (h : parseDoc c doc = .ok r) (hw : ∀ e ∈ r.elements, Whole e) : reread c rd r = r := by
  unfold parseDoc at h
  split at h
  · cases h
  · obtain ⟨nm, hn, h⟩ := bind_ok h
    obtain ⟨es, hes, h⟩ := bind_ok h
    obtain rfl := Except.ok.inj h
    have key := foldlM_inv (I := fun es : List XElement => ∀ e ∈ es, Whole e → reElement c rd e = e) (by
      intro b k b' hb e
      unfold robotStep at e
      split at e
      · obtain ⟨g, hg, e⟩ := bind_ok e; obtain rfl := Except.ok.inj e
        intro x hx hxw
        rcases List.mem_append.mp hx with hx | hx
        · exact hb x hx hxw
        · obtain rfl := List.mem_singleton.mp hx
          exact congrArg XElement.joint (joint_kept E hg hxw)
      split at e
      · obtain ⟨g, hg, e⟩ := bind_ok e; obtain rfl := Except.ok.inj e
        intro x hx hxw
        rcases List.mem_append.mp hx with hx | hx
        · exact hb x hx hxw
        · obtain rfl := List.mem_singleton.mp hx
          exact congrArg XElement.link (link_kept E hg hxw)
      split at e
      · obtain ⟨g, hg, e⟩ := bind_ok e; obtain rfl := Except.ok.inj e
        intro x hx hxw
        rcases List.mem_append.mp hx with hx | hx
        · exact hb x hx hxw
        · obtain rfl := List.mem_singleton.mp hx
          exact congrArg XElement.material (material_kept E hg)
      · obtain rfl := Except.ok.inj e; exact hb) _ (show ∀ e ∈ ([] : List XElement), _ by simp) hes
    unfold reread
    simp only [reStr, PyStr.chars]
    rw [(List.map_congr_left (g := id) fun e he => key e he (hw e he)).trans (List.map_id _)]

end Arboris.UrdfXml
