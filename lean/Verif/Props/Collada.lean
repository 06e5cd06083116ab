import Verif.Spec.Collada
import Verif.Props.Drawer
import Verif.Props.Logger
import Verif.Props.ReplaceChain

/-!
# C99: playing a COLLADA animation shows the recorded motion
-/

namespace Arboris
open Log Visu Graph Spec Build

/-! ### ids -/

lemma freshId_eq (taken : List String) (s : String) :
    (s ∉ taken → freshId taken s = s) ∧ (freshId taken s = s ∨ ∃ i : ℕ, freshId taken s = s ++ "_" ++ toString i) := by
  unfold freshId
  refine ⟨fun h => if_neg h, ?_⟩
  split
  · right
    cases hf : (((List.range 100).map fun i => s ++ "_" ++ toString i).find? fun t => t ∉ taken) with
    | none => exact ⟨99, by rw [String.append_assoc]; rfl⟩
    | some t =>
      obtain ⟨i, -, rfl⟩ := List.mem_map.mp (List.mem_of_find?_eq_some hf)
      exact ⟨i, rfl⟩
  · exact .inl rfl

/-- the `id` a name gives: the empty name gives none -/
def idOf (x : Option String) : Option String := x.filter fun s => s ≠ ""

lemma nodeId_fresh {taken : List String} {x : Option String} (h : ∀ s, x = some s → s ≠ "" → s ∉ taken) :
    nodeId taken x = (idOf x, taken ++ (idOf x).toList) := by
  cases x with
  | none => simp [nodeId, idOf]
  | some s =>
    by_cases hs : s = ""
    · subst hs; simp [nodeId, idOf, Option.filter]
    · simp [nodeId, idOf, hs, (freshId_eq taken s).1 (h s rfl hs), Option.filter]

lemma nodeId_mem {taken : List String} {x : Option String} {t : String} (h : t ∈ (nodeId taken x).2) :
    t ∈ taken ∨ ∃ u, x = some u ∧ (t = u ∨ ∃ i : ℕ, t = u ++ "_" ++ toString i) := by
  cases x with
  | none => exact .inl h
  | some s =>
    change t ∈ (if s = "" then (none, taken) else (some (freshId taken s), taken ++ [freshId taken s])).2 at h
    by_cases hs : s = ""
    · rw [if_pos hs] at h; exact .inl h
    · rw [if_neg hs] at h
      rcases List.mem_append.mp h with h | h
      · exact .inl h
      · rw [List.mem_singleton] at h
        exact .inr ⟨s, rfl, h ▸ (freshId_eq taken s).2⟩

/-! ### the links lead to new bodies -/

def DNew (o : Objs) : List FrameRef → List Graph.Ev → Prop
  | _, [] => True
  | A, e :: l => (∀ f0 j f1, e = .link f0 j f1 → ∀ r ∈ A, o.bodyOf r ≠ o.bodyOf f1) ∧ DNew o (dgive o e ++ A) l

lemma DNew.append {o : Objs} {l1 l2 : List Graph.Ev} : ∀ {A : List FrameRef}, DNew o A l1 → DNew o (dafter o A l1) l2 → DNew o A (l1 ++ l2) := by
  induction l1 with
  | nil => intro A _ h; exact h
  | cons e l ih => intro A h1 h2; exact ⟨h1.1, ih h1.2 h2⟩

lemma DNew.noLink {o : Objs} {l : List Graph.Ev} : ∀ {A : List FrameRef}, (∀ e ∈ l, ∀ f0 j f1, e ≠ .link f0 j f1) → DNew o A l := by
  induction l with
  | nil => intros; trivial
  | cons e l ih =>
    intro A h
    exact ⟨fun f0 j f1 he => absurd he (h e List.mem_cons_self f0 j f1), ih fun e he => h e (List.mem_cons_of_mem _ he)⟩

lemma bodyCalls_noLink {o : Objs} {w : World} (hk : ∀ s ∈ w.shapes, Known w (o.shapeFrame s)) {b : ℕ} :
    ∀ e ∈ bodyCalls o w b, ∀ f0 j f1, e ≠ Graph.Ev.link f0 j f1 := by
  intro e he f0 j f1 h
  rcases (mem_bodyCalls hk).mp he with rfl | ⟨_, _, _, rfl⟩ | ⟨_, _, _, rfl⟩ <;> cases h

lemma bodyCalls_give {o : Objs} {w : World} (hk : ∀ s ∈ w.shapes, Known w (o.shapeFrame s)) {b : ℕ} {e : Graph.Ev} (he : e ∈ bodyCalls o w b)
    {r : FrameRef} (hr : r ∈ dgive o e) : o.bodyOf r = b := by
  rcases (mem_bodyCalls hk).mp he with rfl | ⟨f, _, hf, rfl⟩ | ⟨_, _, _, rfl⟩
  · simp [dgive] at hr
  · simp only [dgive, List.mem_singleton] at hr
    rw [hr]; exact hf
  · simp [dgive] at hr

lemma treeCalls_give {o : Objs} {w : World} (hk : ∀ s ∈ w.shapes, Known w (o.shapeFrame s)) {b js F} (h : Unfolds o w b js F)
    {e : Graph.Ev} (he : e ∈ treeCalls o w F) {r : FrameRef} (hr : r ∈ dgive o e) : o.bodyOf r ∈ F.bodies := by
  rcases mem_treeCalls.mp he with ⟨l, hl, rfl⟩ | ⟨b', hb', he⟩
  · simp only [dgive, List.mem_cons, List.not_mem_nil, or_false] at hr
    have := (unfolds_ends h hl).2.2.2
    rcases hr with rfl | rfl
    · exact this
    · exact this
  · rw [bodyCalls_give hk he hr]; exact hb'

lemma treeCalls_dnew {o : Objs} {w : World} (hk : ∀ s ∈ w.shapes, Known w (o.shapeFrame s)) {b js F} (h : Unfolds o w b js F)
    (hn : F.bodies.Nodup) {A : List FrameRef} (hA : ∀ r ∈ A, o.bodyOf r ∉ F.bodies) : DNew o A (treeCalls o w F) := by
  induction h generalizing A with
  | nil => trivial
  | @cons b j js f0 f1 ch sib h0 h1 hb0 hpar hch hsib ihc ihs =>
    simp only [Forest.bodies, List.cons_append, List.nodup_cons, List.mem_append, not_or, List.nodup_append] at hn
    simp only [Forest.bodies, List.cons_append, List.mem_cons, List.mem_append, not_or] at hA
    obtain ⟨⟨n1, n2⟩, n3, n4, n5⟩ := hn
    simp only [treeCalls]
    refine DNew.append (DNew.append (l1 := Graph.Ev.link f0 j f1 :: bodyCalls o w (o.bodyOf f1)) ⟨?_, DNew.noLink (bodyCalls_noLink hk)⟩ (ihc n3 ?_)) (ihs n4 ?_)
    · intro _ _ _ he r hr
      cases he
      exact (hA r hr).1
    · intro r hr hr'
      rcases mem_dafter.mp hr with hr | ⟨e, he, hr⟩
      · exact (hA r hr).2.1 hr'
      · rcases List.mem_cons.mp he with rfl | he
        · simp only [dgive, List.mem_cons, List.not_mem_nil, or_false] at hr
          rcases hr with rfl | rfl
          · exact n1 hr'
          · exact n1 hr'
        · rw [bodyCalls_give hk he hr] at hr'; exact n1 hr'
    · intro r hr hr'
      rcases mem_dafter.mp hr with hr | ⟨e, he, hr⟩
      · exact (hA r hr).2.2 hr'
      · rcases List.mem_append.mp he with he | he
        · rcases List.mem_cons.mp he with rfl | he
          · simp only [dgive, List.mem_cons, List.not_mem_nil, or_false] at hr
            rcases hr with rfl | rfl
            · exact n2 hr'
            · exact n2 hr'
          · rw [bodyCalls_give hk he hr] at hr'; exact n2 hr'
        · exact n5 _ (treeCalls_give hk hch he hr) _ hr' rfl

lemma nodeIds_fresh : ∀ (xs : List (Option String)) {taken : List String}, (∀ x ∈ xs, ∀ s, x = some s → s ≠ "" → s ∉ taken) →
    xs.Pairwise (fun x y => ∀ s, x = some s → s ≠ "" → y ≠ some s) → nodeIds taken xs = (xs.map idOf, taken ++ xs.filterMap idOf)
  | [], taken, _, _ => by simp [nodeIds]
  | x :: xs, taken, h, hp => by
    rw [List.pairwise_cons] at hp
    have e := nodeIds_fresh xs (taken := taken ++ (idOf x).toList) (by
      intro y hy s hs hs' hm
      rcases List.mem_append.mp hm with hm | hm
      · exact h y (List.mem_cons_of_mem _ hy) s hs hs' hm
      · have : idOf x = some s := by simpa using hm
        exact hp.1 y hy s (Option.eq_some_of_filter_eq_some this) hs' hs) hp.2
    simp only [nodeIds, nodeId_fresh (h x List.mem_cons_self), e, List.map_cons, List.append_assoc]
    cases hx : idOf x <;> simp [hx]

/-! ### the scene at a key of the animation -/

/-- what the animations must give to the frames for the scene to be that of `gk` -/
structure Replay (o : Objs) (w : World) (F : Forest (FrameRef × ℕ × FrameRef) ℕ) (flat : Bool) (g0 gk : Geo) (V : FrameRef → Option Mat4) : Prop where
  moving : gk.moving = g0.moving
  static : ∀ x, g0.moving x = false → gk.bpose x = g0.bpose x
  ground : (V (.body w.ground)).getD 1 = 1
  flatBody : flat = true → ∀ b ∈ w.ground :: F.bodies, V (.body b) = some (gk.bodyPose b)
  flatMoving : flat = true → ∀ x, InWorld o w F (.sub x) → g0.moving x = true → V (.sub x) = some (poseOf o gk (.sub x))
  flatStatic : flat = true → ∀ x, InWorld o w F (.sub x) → g0.moving x = false → V (.sub x) = none
  relLink : flat = false → ∀ l ∈ F.links, V l.2.2 = some (gk.jpose l.2.1)
  relMoving : flat = false → ∀ x, InWorld o w F (.sub x) → g0.moving x = true → V (.sub x) = some (gk.bpose x)
  relBody : flat = false → ∀ l ∈ F.links, ∀ x, l.2.2 = .sub x → V (.body (o.subBody x)) = none
  relStatic : flat = false → ∀ x, InWorld o w F (.sub x) → g0.moving x = false → (∀ l ∈ F.links, l.2.2 ≠ .sub x) → V (.sub x) = none

/-- the geometry shown: in flat mode the moving subframes are attached to the ground -/
noncomputable def shownGeo (o : Objs) (flat : Bool) (g0 gk : Geo) : Geo :=
  { gk with bpose := fun x => if flat && gk.moving x then poseOf o gk (.sub x) else gk.bpose x, heavy := g0.heavy }

section
variable {o : Objs} {w : World} {F : Forest (FrameRef × ℕ × FrameRef) ℕ} {flat : Bool} {lab : Labels} {op : Opts}
  {argsort : Vec3 → Equiv.Perm (Fin 3)} {g0 gk : Geo} {anims : List Anim} {k : ℕ}

/-- the shape drawn by a call -/
def dshape : Graph.Ev → List ℕ
  | .reg (.shape s) => [s]
  | _ => []

def dshapes : List Graph.Ev → List ℕ → List ℕ
  | [], S => S
  | e :: l, S => dshapes l (dshape e ++ S)

/-- the shape a call is about -/
def evShape : Graph.Ev → Option ℕ
  | .reg (.shape s) => some s
  | _ => none

lemma dshapes_eq : ∀ (l : List Graph.Ev) (S : List ℕ), dshapes l S = (l.filterMap evShape).reverse ++ S
  | [], S => rfl
  | e :: l, S => by
    rw [dshapes, dshapes_eq l]
    cases e with
    | reg x => cases x <;> simp [dshape, evShape, List.filterMap_cons]
    | _ => simp [dshape, evShape, List.filterMap_cons]

lemma mem_evShape {l : List Graph.Ev} {s : ℕ} : s ∈ l.filterMap evShape ↔ Graph.Ev.reg (.shape s) ∈ l := by
  rw [List.mem_filterMap]
  constructor
  · rintro ⟨e, he, h⟩
    cases e with
    | reg x =>
      cases x with
      | shape t => cases h; exact he
      | _ => cases h
    | _ => cases h
  · intro h; exact ⟨_, h, rfl⟩

lemma nodup_evShape {l : List Graph.Ev} (h : l.Nodup) : (l.filterMap evShape).Nodup := by
  refine h.filterMap ?_
  intro a b x ha hb
  have key : ∀ e : Graph.Ev, x ∈ evShape e → e = .reg (.shape x) := by
    intro e he
    cases e with
    | reg y =>
      cases y with
      | shape t => cases he; rfl
      | _ => cases he
    | _ => cases he
  rw [key a ha, key b hb]

/-- the node of a shape is right: mesh, transform, attached to the node of its frame -/
def ShapeAt (o : Objs) (lab : Labels) (op : Opts) (argsort : Vec3 → Equiv.Perm (Fin 3)) (fn : PDict FrameRef ℕ) (s : ℕ) (n : ShapeNode) : Prop :=
  shapeXform op argsort (lab.geo s) = .ok (n.mesh, n.xform) ∧ PDict.get? fn (o.shapeFrame s) = some n.parent

/-- the scene and the drawing of `shownGeo`, side by side -/
structure Lock (o : Objs) (w : World) (F : Forest (FrameRef × ℕ × FrameRef) ℕ) (lab : Labels) (op : Opts) (argsort : Vec3 → Equiv.Perm (Fin 3))
    (anims : List Anim) (k : ℕ) (A : List FrameRef) (S : List ℕ) (c : CSt) (d : DSt) : Prop where
  len : c.ids.length = c.d.nodes.length
  nodes : play anims k c.ids c.d.nodes = d.nodes
  frames : c.d.frameNodes = d.frameNodes
  keys : ∀ f, (PDict.get? c.d.frameNodes f).isSome ↔ f ∈ A
  taken : ∀ t ∈ c.taken, (∃ f ∈ A, lab.frame f = some t) ∨ ShapeId w lab t
  inW : ∀ f ∈ A, InWorld o w F f
  closed : ∀ l ∈ F.links, .body (o.bodyOf l.2.2) ∈ A → l.2.2 ∈ A
  shapes : List.Forall₂ (ShapeAt o lab op argsort c.d.frameNodes) S c.shapes.reverse

lemma Lock.nodesLen {A : List FrameRef} {S : List ℕ} {c : CSt} {d : DSt} (h : Lock o w F lab op argsort anims k A S c d) : d.nodes.length = c.d.nodes.length := by
  rw [← h.nodes, play, List.length_zipWith, h.len, min_self]

lemma Lock.node {A : List FrameRef} {S : List ℕ} {c : CSt} {d : DSt} (h : Lock o w F lab op argsort anims k A S c d) (f : FrameRef) : c.d.node f = d.node f := by
  rw [DSt.node, DSt.node, h.frames]

/-- new nodes for the frames `fs` -/
lemma Lock.extend (hN : GoodNames o w F lab) {A A' : List FrameRef} {S : List ℕ} {c : CSt} {d : DSt} (h : Lock o w F lab op argsort anims k A S c d) {fs : List FrameRef}
    {ns0 ns2 : List Node} {d0' d' : DSt} (e0 : d0'.nodes = c.d.nodes ++ ns0) (e2 : d'.nodes = d.nodes ++ ns2) (ef : d0'.frameNodes = d'.frameNodes)
    (hl : fs.length = ns0.length)
    (hp : List.zipWith (playNode anims k) (fs.map fun f => idOf (lab.frame f)) ns0 = ns2) (hnew : ∀ f ∈ fs, f ∉ A) (hnd : fs.Nodup)
    (hin : ∀ f ∈ fs, InWorld o w F f) (hA : ∀ f, f ∈ A' ↔ f ∈ fs ∨ f ∈ A) (hk : ∀ f, (PDict.get? d0'.frameNodes f).isSome ↔ f ∈ fs ∨ f ∈ A)
    (hc : ∀ l ∈ F.links, .body (o.bodyOf l.2.2) ∈ A' → l.2.2 ∈ A') (hold : ∀ f ∈ A, PDict.get? d0'.frameNodes f = PDict.get? c.d.frameNodes f) :
    Lock o w F lab op argsort anims k A' S { c with d := d0', ids := c.ids ++ (nodeIds c.taken (fs.map lab.frame)).1, taken := (nodeIds c.taken (fs.map lab.frame)).2 } d' := by
  have hfresh := nodeIds_fresh (fs.map lab.frame) (taken := c.taken) (by
    intro x hx s hs hs' hm
    obtain ⟨f, hf, rfl⟩ := List.mem_map.mp hx
    rcases h.taken s hm with ⟨f', hf', hl⟩ | hsh
    · have := hN.inj f f' s (hin f hf) (h.inW f' hf') hs hl
      exact hnew f hf (this ▸ hf')
    · exact hN.shape f s (hin f hf) hs hsh) (by
    rw [List.pairwise_map]
    have hnd' := List.Pairwise.and_mem.mp hnd
    refine hnd'.imp ?_
    rintro a b ⟨ha, hb, hab⟩ s hs hs' hb'
    exact hab (hN.inj a b s (hin a ha) (hin b hb) hs hb'))
  rw [hfresh]
  refine ⟨?_, ?_, ef, fun f => by rw [hk, hA], ?_, ?_, hc, h.shapes.imp fun s n hn => ⟨hn.1, (hold _ ((h.keys _).mp (by rw [hn.2]; rfl))).trans hn.2⟩⟩
  · simp only [List.length_append, List.length_map, h.len, e0, hl]
  · simp only [play, e0, e2]
    rw [List.zipWith_append h.len, List.map_map]
    rw [← play, h.nodes]
    congr 1
  · intro t ht
    rcases List.mem_append.mp ht with ht | ht
    · rcases h.taken t ht with ⟨f, hf, hl⟩ | hs
      · exact .inl ⟨f, (hA f).mpr (.inr hf), hl⟩
      · exact .inr hs
    · obtain ⟨x, hx, hxt⟩ := List.mem_filterMap.mp ht
      obtain ⟨f, hf, rfl⟩ := List.mem_map.mp hx
      exact .inl ⟨f, (hA f).mpr (.inl hf), Option.eq_some_of_filter_eq_some hxt⟩
  · intro f hf
    rcases (hA f).mp hf with hf | hf
    · exact hin f hf
    · exact h.inW f hf

/-- what a call must satisfy -/
def CallOk (o : Objs) (w : World) (F : Forest (FrameRef × ℕ × FrameRef) ℕ) (g0 : Geo) (lab : Labels) (op : Opts)
    (argsort : Vec3 → Equiv.Perm (Fin 3)) : Graph.Ev → Prop
  | .initParse _ => False
  | .reg (.frame (.sub x)) => InWorld o w F (.sub x)
  | .reg (.shape s) => s ∈ w.shapes ∧ ∃ r, shapeXform op argsort (lab.geo s) = .ok r
  | .reg _ => True
  | .link f0 j f1 => (f0, j, f1) ∈ F.links ∧ InWorld o w F f1 ∧ InWorld o w F (.body (o.bodyOf f1)) ∧ ∀ x, f1 = .sub x → g0.moving x = false

lemma get_set_isSome {K A : Type} [DecidableEq K] (d : PDict K A) (k : K) (a : A) (f : K) :
    (PDict.get? (PDict.set d k a) f).isSome ↔ f = k ∨ (PDict.get? d f).isSome := by
  rw [pget_set]
  by_cases h : f = k <;> simp [h]

lemma scene_step (hR : Replay o w F flat g0 gk fun f => (idOf (lab.frame f)).bind (keyOf anims k)) (hN : GoodNames o w F lab)
    (hbn : (F.links.map fun l => o.bodyOf l.2.2).Nodup) {A : List FrameRef} {S : List ℕ} {c : CSt}
    {d : DSt} (h : Lock o w F lab op argsort anims k A S c d) {e : Graph.Ev} (hneed : ∀ r ∈ dneed o e, r ∈ A)
    (hnew : ∀ f0 j f1, e = .link f0 j f1 → ∀ r ∈ A, o.bodyOf r ≠ o.bodyOf f1) (he : CallOk o w F g0 lab op argsort e) {d' : DSt}
    (hd : drawEv o (shownGeo o flat g0 gk) flat d e = .ok d') :
    ∃ c', sceneEv o g0 flat lab op argsort c e = .ok c' ∧ Lock o w F lab op argsort anims k (dgive o e ++ A) (dshape e ++ S) c' d' := by
  have hlen := h.nodesLen
  have same : ∀ {A'}, (∀ f, f ∈ A' ↔ f ∈ A) → Lock o w F lab op argsort anims k A' S c d := by
    intro A' hA
    exact ⟨h.len, h.nodes, h.frames, fun f => by rw [h.keys, hA], fun t ht => by simpa only [hA] using h.taken t ht,
      fun f hf => h.inW f ((hA f).mp hf), fun l hl => by simpa only [hA] using h.closed l hl, h.shapes⟩
  have getNode : ∀ f ∈ A, ∃ i, c.d.node f = .ok i ∧ d.node f = .ok i := by
    intro f hf
    obtain ⟨i, hi⟩ := Option.isSome_iff_exists.mp ((h.keys f).mpr hf)
    have : c.d.node f = .ok i := by simp [DSt.node, hi]
    exact ⟨i, this, h.node f ▸ this⟩
  cases e with
  | initParse _ => exact he.elim
  | reg x =>
    cases x with
    | frame f =>
      cases f with
      | body b =>
        obtain ⟨i, hi, hi2⟩ := getNode (.body b) (hneed _ (by simp [dneed]))
        have hd' : d' = d := by
          simp only [drawEv, drawReg, hi2, bind, Except.bind] at hd
          split at hd <;> cases hd <;> rfl
        have hc : drawEv o g0 flat c.d (.reg (.frame (.body b))) = .ok c.d := by
          simp only [drawEv, drawReg, hi, bind, Except.bind]
          split <;> rfl
        refine ⟨c, ?_, hd' ▸ same (by simp [dgive])⟩
        simp only [sceneEv, hc, newLabels, nodeIds, bind, Except.bind, List.append_nil]
        rfl
      | sub x =>
        by_cases hs : (PDict.get? c.d.frameNodes (.sub x)).isSome
        · have hs2 : (PDict.get? d.frameNodes (.sub x)).isSome := h.frames ▸ hs
          have hd' : d' = d := by
            simp only [drawEv, drawReg, hs2, if_true] at hd
            cases hd; rfl
          have hc : drawEv o g0 flat c.d (.reg (.frame (.sub x))) = .ok c.d := by
            simp only [drawEv, drawReg, hs, if_true]
          have hx := (h.keys _).mp hs
          refine ⟨c, ?_, hd' ▸ same (by
            intro f
            simp only [dgive, List.cons_append, List.nil_append, List.mem_cons]
            exact ⟨fun h => h.elim (fun e => e ▸ hx) id, .inr⟩)⟩
          simp only [sceneEv, hc, newLabels, nodeIds, bind, Except.bind, hs, if_true, List.append_nil]
          rfl
        · have hs2 : ¬ (PDict.get? d.frameNodes (.sub x)).isSome := h.frames ▸ hs
          have hxA : FrameRef.sub x ∉ A := fun hx => hs ((h.keys _).mpr hx)
          obtain ⟨p, hp, hp2⟩ := getNode (.body (o.subBody x)) (hneed _ (by simp [dneed]))
          have main : ∀ (q : ℕ) (H0 H2 : Mat4) (D0 D2 : DSt), drawEv o g0 flat c.d (.reg (.frame (.sub x))) = .ok D0 → d' = D2 →
              D0.nodes = c.d.nodes ++ [⟨some q, H0⟩] → D2.nodes = d.nodes ++ [⟨some q, H2⟩] →
              D0.frameNodes = PDict.set c.d.frameNodes (.sub x) c.d.nodes.length → D2.frameNodes = PDict.set d.frameNodes (.sub x) d.nodes.length →
              (((idOf (lab.frame (.sub x))).bind (keyOf anims k)).getD H0 = H2) →
              ∃ c', sceneEv o g0 flat lab op argsort c (.reg (.frame (.sub x))) = .ok c' ∧
                Lock o w F lab op argsort anims k (dgive o (.reg (.frame (.sub x))) ++ A) (dshape (.reg (.frame (.sub x))) ++ S) c' d' := by
            intro q H0 H2 D0 D2 hc hd' n0 n2 f0 f2 hv
            subst hd'
            refine ⟨_, ?_, h.extend (A' := dgive o (.reg (.frame (.sub x))) ++ A) hN (fs := [.sub x]) n0 n2 (by rw [f0, f2, h.frames, hlen]) rfl ?_ (by simpa using hxA) (by simp) (by intro f hf; rw [List.mem_singleton] at hf; rw [hf]; exact he) (by simp [dgive]) ?_ ?_ ?_⟩
            · simp only [sceneEv, hc, newLabels, bind, Except.bind, hs]
              rfl
            · simp only [List.map_cons, List.map_nil, List.zipWith_cons_cons, List.zipWith_nil_left, playNode]
              rw [hv]
            · intro f
              rw [f0, get_set_isSome, h.keys]; simp
            · intro l hl hb
              simp only [dgive, List.cons_append, List.nil_append, List.mem_cons] at hb ⊢
              rcases hb with hb | hb
              · cases hb
              · exact .inr (h.closed l hl hb)
            · intro f hf
              rw [f0, pget_set, if_neg (fun e : f = .sub x => hxA (e ▸ hf))]
          have hxW : InWorld o w F (.sub x) := he
          by_cases hm : g0.moving x = true
          · have hm2 : (shownGeo o flat g0 gk).moving x = true := by rw [← hm, ← hR.moving]; rfl
            by_cases hf : flat = true
            · subst hf
              simp only [drawEv, drawReg, hs2, hm2, if_true] at hd
              cases hd
              refine main 0 (g0.bpose x) ((shownGeo o true g0 gk).bpose x) _ _ (by simp only [drawEv, drawReg, hs, hm, if_true]; rfl) rfl rfl rfl rfl rfl ?_
              rw [hR.flatMoving rfl x hxW hm]
              simp [shownGeo, show gk.moving x = true from hm2]
            · have hf' : flat = false := by simpa using hf
              subst hf'
              simp only [drawEv, drawReg, hs2, hm2, hp2, bind, Except.bind, if_true] at hd
              cases hd
              refine main p (g0.bpose x) ((shownGeo o false g0 gk).bpose x) _ _ (by simp only [drawEv, drawReg, hs, hm, hp, bind, Except.bind, if_true]; rfl) rfl rfl rfl rfl rfl ?_
              rw [hR.relMoving rfl x hxW hm]
              simp [shownGeo]
          · have hm' : g0.moving x = false := by simpa using hm
            have hm2 : (shownGeo o flat g0 gk).moving x = false := by rw [← hm', ← hR.moving]; rfl
            simp only [drawEv, drawReg, hs2, hm2, hp2, bind, Except.bind] at hd
            cases hd
            refine main p (g0.bpose x) ((shownGeo o flat g0 gk).bpose x) _ _ (by simp only [drawEv, drawReg, hs, hm', hp, bind, Except.bind]; rfl) rfl rfl rfl rfl rfl ?_
            have hst : (shownGeo o flat g0 gk).bpose x = g0.bpose x := by
              simp only [shownGeo]
              rw [if_neg (by rw [show gk.moving x = false from hm2]; simp), hR.static x hm']
            rw [hst]
            by_cases hf : flat = true
            · rw [hR.flatStatic hf x hxW hm']; rfl
            · rw [hR.relStatic (by simpa using hf) x hxW hm' ?_]; · rfl
              intro l hl hlx
              have := h.closed l hl (by
                rw [hlx]
                exact hneed (.body (o.subBody x)) (by simp [dneed]))
              rw [hlx] at this
              exact hxA this
    | shape s =>
      obtain ⟨hsw, r, hr⟩ := he
      obtain ⟨i, hi, hi2⟩ := getNode (o.shapeFrame s) (hneed _ (by simp [dneed]))
      have hd' : d' = d := by
        simp only [drawEv, drawReg, hi2, bind, Except.bind] at hd
        cases hd; rfl
      subst hd'
      have hc : drawEv o g0 flat c.d (.reg (.shape s)) = .ok c.d := by
        simp only [drawEv, drawReg, hi, bind, Except.bind]; rfl
      refine ⟨_, by simp only [sceneEv, hc, hr, hi, bind, Except.bind]; rfl, ?_⟩
      have hL := same (A' := dgive o (.reg (.shape s)) ++ A) (by simp [dgive])
      refine ⟨hL.len, hL.nodes, hL.frames, hL.keys, ?_, hL.inW, hL.closed, ?_⟩
      · intro t ht
        rcases nodeId_mem ht with ht | ⟨u, hu, ht⟩
        · exact hL.taken t ht
        · refine .inr ⟨s, hsw, u, ?_, ht⟩
          split at hu
          · exact hu
          · cases hu
      · simp only [List.reverse_append, List.reverse_cons, List.reverse_nil, List.nil_append, List.singleton_append]
        refine List.Forall₂.cons ⟨hr, ?_⟩ hL.shapes
        simp only [DSt.node] at hi
        split at hi
        · rename_i i' hi'
          cases hi; exact hi'
        · cases hi
    | joint j => cases hd; exact ⟨c, by simp [sceneEv, drawEv, drawReg, newLabels, nodeIds, bind, Except.bind, pure, Except.pure], same (by simp [dgive])⟩
    | con j => cases hd; exact ⟨c, by simp [sceneEv, drawEv, drawReg, newLabels, nodeIds, bind, Except.bind, pure, Except.pure], same (by simp [dgive])⟩
    | ctrl j => cases hd; exact ⟨c, by simp [sceneEv, drawEv, drawReg, newLabels, nodeIds, bind, Except.bind, pure, Except.pure], same (by simp [dgive])⟩
    | other => cases hd; exact ⟨c, by simp [sceneEv, drawEv, drawReg, newLabels, nodeIds, bind, Except.bind, pure, Except.pure], same (by simp [dgive])⟩
  | link f0 j f1 =>
    obtain ⟨hl, hW1, hWb, hm1⟩ := he
    obtain ⟨p, hp, hp2⟩ := getNode f0 (hneed _ (by simp [dneed]))
    have hn := hnew f0 j f1 rfl
    have hclosed : ∀ l ∈ F.links, FrameRef.body (o.bodyOf l.2.2) ∈ dgive o (.link f0 j f1) ++ A → l.2.2 ∈ dgive o (.link f0 j f1) ++ A := by
      intro l hl' hb
      by_cases hll : l = (f0, j, f1)
      · subst hll; simp [dgive]
      · have hne : o.bodyOf l.2.2 ≠ o.bodyOf f1 := by
          intro hEq
          exact hll (List.inj_on_of_nodup_map hbn hl' hl hEq)
        rw [List.mem_append] at hb ⊢
        rcases hb with hb | hb
        · simp only [dgive, List.mem_cons, List.not_mem_nil, or_false, FrameRef.body.injEq] at hb
          rcases hb with hb | hb
          · exfalso; apply hne; rw [← hb]; rfl
          · exact absurd hb hne
        · exact .inr (h.closed l hl' hb)
    cases f1 with
    | body b =>
      have main : ∀ (q : ℕ) (H0 H2 : Mat4) (D0 D2 : DSt), drawEv o g0 flat c.d (.link f0 j (.body b)) = .ok D0 → d' = D2 →
          D0.nodes = c.d.nodes ++ [⟨some q, H0⟩] → D2.nodes = d.nodes ++ [⟨some q, H2⟩] →
          D0.frameNodes = PDict.set c.d.frameNodes (.body b) c.d.nodes.length → D2.frameNodes = PDict.set d.frameNodes (.body b) d.nodes.length →
          (((idOf (lab.frame (.body b))).bind (keyOf anims k)).getD H0 = H2) →
          ∃ c', sceneEv o g0 flat lab op argsort c (.link f0 j (.body b)) = .ok c' ∧
            Lock o w F lab op argsort anims k (dgive o (.link f0 j (.body b)) ++ A) (dshape (.link f0 j (.body b)) ++ S) c' d' := by
        intro q H0 H2 D0 D2 hc hd' n0 n2 f0' f2 hv
        subst hd'
        refine ⟨_, ?_, h.extend (A' := dgive o (.link f0 j (.body b)) ++ A) hN (fs := [.body b]) n0 n2 (by rw [f0', f2, h.frames, hlen]) rfl ?_ ?_ (by simp) (by simpa using hW1) (by simp [dgive, Objs.bodyOf]) ?_ hclosed ?_⟩
        · simp only [sceneEv, hc, newLabels, bind, Except.bind]
          rfl
        · simp only [List.map_cons, List.map_nil, List.zipWith_cons_cons, List.zipWith_nil_left, playNode]
          rw [hv]
        · intro f hf hfA
          rw [List.mem_singleton] at hf
          exact hn f hfA (by rw [hf])
        · intro f
          rw [f0', get_set_isSome, h.keys]; simp
        · intro f hf
          rw [f0', pget_set, if_neg (fun e => hn f hf (by rw [e]))]
      by_cases hf : flat = true
      · subst hf
        simp only [drawEv, drawLink, if_true] at hd
        cases hd
        refine main 0 (g0.bodyPose b) (gk.bodyPose b) _ _ (by simp only [drawEv, drawLink, if_true]; rfl) rfl rfl rfl rfl rfl ?_
        rw [hR.flatBody rfl b hW1.1]; rfl
      · have hf' : flat = false := by simpa using hf
        subst hf'
        simp only [drawEv, drawLink, hp2, bind, Except.bind] at hd
        cases hd
        refine main p (g0.jpose j) (gk.jpose j) _ _ (by simp only [drawEv, drawLink, hp, bind, Except.bind]; rfl) rfl rfl rfl rfl rfl ?_
        rw [hR.relLink rfl _ hl]; rfl
    | sub x =>
      have hm0 : g0.moving x = false := hm1 x rfl
      have hm2 : (shownGeo o flat g0 gk).moving x = false := by rw [← hm0, ← hR.moving]; rfl
      have hst : (shownGeo o flat g0 gk).bpose x = g0.bpose x := by
        simp only [shownGeo]
        rw [if_neg (by rw [show gk.moving x = false from hm2]; simp), hR.static x hm0]
      have main : ∀ (fs : List FrameRef) (q : ℕ) (H0 H2 K0 K2 : Mat4) (D0 D2 : DSt) (i i' : ℕ),
          (fs = [.body (o.subBody x), .sub x] ∨ fs = [.sub x, .body (o.subBody x)]) →
          newLabels o lab flat c.d (.link f0 j (.sub x)) = fs.map lab.frame →
          drawEv o g0 flat c.d (.link f0 j (.sub x)) = .ok D0 → d' = D2 →
          D0.nodes = c.d.nodes ++ [⟨some q, H0⟩, ⟨some c.d.nodes.length, K0⟩] → D2.nodes = d.nodes ++ [⟨some q, H2⟩, ⟨some d.nodes.length, K2⟩] →
          D0.frameNodes = PDict.set (PDict.set c.d.frameNodes (.body (o.subBody x)) i) (.sub x) i' →
          D2.frameNodes = PDict.set (PDict.set d.frameNodes (.body (o.subBody x)) i) (.sub x) i' →
          (∀ a b, fs = [a, b] → ((idOf (lab.frame a)).bind (keyOf anims k)).getD H0 = H2 ∧ ((idOf (lab.frame b)).bind (keyOf anims k)).getD K0 = K2) →
          ∃ c', sceneEv o g0 flat lab op argsort c (.link f0 j (.sub x)) = .ok c' ∧
            Lock o w F lab op argsort anims k (dgive o (.link f0 j (.sub x)) ++ A) (dshape (.link f0 j (.sub x)) ++ S) c' d' := by
        intro fs q H0 H2 K0 K2 D0 D2 i i' hfs hlabs hc hd' n0 n2 f0' f2 hv
        subst hd'
        have hmem : ∀ f, f ∈ fs ↔ f = .sub x ∨ f = .body (o.subBody x) := by
          intro f
          rcases hfs with rfl | rfl <;> simp [or_comm]
        refine ⟨_, ?_, h.extend (A' := dgive o (.link f0 j (.sub x)) ++ A) hN (fs := fs) n0 n2 (by rw [f0', f2, h.frames]) ?_ ?_ ?_ ?_ ?_ ?_ ?_ hclosed ?_⟩
        · simp only [sceneEv, hc, hlabs, bind, Except.bind]
          rfl
        · rcases hfs with rfl | rfl <;> rfl
        · rcases hfs with rfl | rfl
          all_goals
            obtain ⟨h1, h2⟩ := hv _ _ rfl
            simp only [List.map_cons, List.map_nil, List.zipWith_cons_cons, List.zipWith_nil_left, playNode]
            rw [h1, h2, hlen]
        · intro f hf hfA
          refine hn f hfA ?_
          rcases (hmem f).mp hf with rfl | rfl <;> rfl
        · rcases hfs with rfl | rfl <;> simp
        · intro f hf
          rcases (hmem f).mp hf with rfl | rfl
          · exact hW1
          · exact hWb
        · intro f
          rw [hmem]
          simp [dgive, Objs.bodyOf, or_assoc]
        · intro f
          rw [f0', get_set_isSome, get_set_isSome, h.keys, hmem, or_assoc]
        · intro f hf
          rw [f0', pget_set, if_neg (fun e => hn f hf (by rw [e])), pget_set, if_neg (fun e => hn f hf (by rw [e]; rfl))]
      by_cases hf : flat = true
      · subst hf
        simp only [drawEv, drawLink, hm2, if_true] at hd
        cases hd
        refine main [.body (o.subBody x), .sub x] 0 (g0.bodyPose (o.subBody x)) (gk.bodyPose (o.subBody x)) (g0.bpose x) ((shownGeo o true g0 gk).bpose x) _ _ c.d.nodes.length (c.d.nodes.length + 1)
          (.inl rfl) rfl (by simp only [drawEv, drawLink, hm0, if_true]; rfl) rfl (by simp [DSt.add, DSt.bind]) (by simp only [DSt.add, DSt.bind, List.append_assoc]; rfl) rfl (by rw [← hlen]; rfl) ?_
        intro a b hab
        cases hab
        rw [hR.flatBody rfl (o.subBody x) hWb.1, hR.flatStatic rfl x hW1 hm0]
        exact ⟨rfl, hst.symm⟩
      · have hf' : flat = false := by simpa using hf
        subst hf'
        simp only [drawEv, drawLink, hm2, hp2, bind, Except.bind] at hd
        cases hd
        refine main [.sub x, .body (o.subBody x)] p (g0.jpose j) (gk.jpose j) (g0.bpose x)⁻¹ ((shownGeo o false g0 gk).bpose x)⁻¹ _ _ (c.d.nodes.length + 1) c.d.nodes.length
          (.inr rfl) rfl (by simp only [drawEv, drawLink, hm0, hp, bind, Except.bind]; rfl) rfl (by simp [DSt.add, DSt.bind]) (by simp only [DSt.add, DSt.bind, List.append_assoc]; rfl) rfl (by rw [← hlen]; rfl) ?_
        intro a b hab
        cases hab
        rw [hR.relLink rfl _ hl, hR.relBody rfl _ hl x rfl]
        refine ⟨rfl, ?_⟩
        rw [hst]; rfl

lemma scene_all (hR : Replay o w F flat g0 gk fun f => (idOf (lab.frame f)).bind (keyOf anims k)) (hN : GoodNames o w F lab)
    (hbn : (F.links.map fun l => o.bodyOf l.2.2).Nodup) : ∀ (l : List Graph.Ev) {A : List FrameRef} {S : List ℕ} {c : CSt} {d : DSt},
    Lock o w F lab op argsort anims k A S c d → DOrd o A l → DNew o A l → (∀ e ∈ l, CallOk o w F g0 lab op argsort e) → ∀ {d' : DSt},
    l.foldlM (drawEv o (shownGeo o flat g0 gk) flat) d = .ok d' →
    ∃ c', l.foldlM (sceneEv o g0 flat lab op argsort) c = .ok c' ∧ Lock o w F lab op argsort anims k (dafter o A l) (dshapes l S) c' d'
  | [], A, S, c, d, h, _, _, _, d', hd => by cases hd; exact ⟨c, rfl, h⟩
  | e :: l, A, S, c, d, h, ho, hn, he, d', hd => by
    rw [List.foldlM_cons] at hd
    cases h1 : drawEv o (shownGeo o flat g0 gk) flat d e with
    | error x => rw [h1] at hd; cases hd
    | ok d1 =>
      rw [h1] at hd
      obtain ⟨c1, e1, l1⟩ := scene_step hR hN hbn h ho.1 hn.1 (he e List.mem_cons_self) h1
      obtain ⟨c2, e2, l2⟩ := scene_all hR hN hbn l l1 ho.2 hn.2 (fun e h => he e (List.mem_cons_of_mem _ h)) hd
      refine ⟨c2, ?_, l2⟩
      rw [List.foldlM_cons, e1]
      exact e2

lemma inWorld_known {f : FrameRef} (h : InWorld o w F f) : Known w f := by
  cases f with
  | body _ => trivial
  | sub x => exact h.2 x rfl

lemma geoOk_shown {lk : FrameRef × ℕ × FrameRef → Link} (hg : GeoOk o gk w.ground F lk) : GeoOk o (shownGeo o flat g0 gk) w.ground F lk := by
  have e : ∀ f, (∀ x, f = .sub x → gk.moving x = false) → bposeOf (shownGeo o flat g0 gk) f = bposeOf gk f := by
    intro f hf
    cases f with
    | body b => rfl
    | sub x => simp [bposeOf, shownGeo, hf x rfl]
  refine ⟨fun l hl => ?_, fun l hl => ?_, hg.joint, hg.pose, hg.ground, fun l hl => ?_, hg.fixed⟩
  · rw [e _ (hg.fixed l hl).1]; exact hg.frame0 l hl
  · rw [e _ (hg.fixed l hl).2]; exact hg.frame1 l hl
  · rw [e _ (hg.fixed l hl).2]; exact hg.rigid l hl

lemma tree_known {b : ℕ} {js : List ℕ} {F : Forest (FrameRef × ℕ × FrameRef) ℕ} (hI : GInv o w) (h : Unfolds o w b js F) (hsub : ∀ j ∈ js, j ∈ (w.body b).children) :
    ∀ l ∈ F.links, Known w l.2.2 := by
  induction h with
  | nil => intro l hl; cases hl
  | @cons b j js f0 f1 ch sib h0 h1 hb0 hpar hch hsib ihc ihs =>
    intro l hl
    simp only [Forest.links, List.cons_append, List.mem_cons, List.mem_append] at hl
    rcases hl with rfl | hl | hl
    · exact hI.known b j (hsub j List.mem_cons_self) f1 (.inr h1)
    · exact ihc (fun _ h => h) l hl
    · exact ihs (fun k hk => hsub k (List.mem_cons_of_mem _ hk)) l hl

/-- the scene at key `k` shows the frames at their poses in `gk` -/
lemma replay_world {lim gr : ℕ} {ops : List Op} (hh : AllowedHistory o lim (World.new gr) ops) (hw : w = runAll o lim (World.new gr) ops)
    (hF : IsTree o w F) {lim' : ℕ} (hl : depth F ≤ lim') {lk : FrameRef × ℕ × FrameRef → Link} (hg : GeoOk o gk w.ground F lk)
    (hR : Replay o w F flat g0 gk fun f => (idOf (lab.frame f)).bind (keyOf anims k)) (hN : GoodNames o w F lab)
    (hs : ∀ s ∈ w.shapes, ∃ r, shapeXform op argsort (lab.geo s) = .ok r) :
    ∃ calls c, parse o w lim' = .ok calls ∧ scene o g0 flat lab op argsort calls = .ok c ∧
      Shows o w F lab op argsort c (play anims k c.ids c.d.nodes) gk := by
  have hRI : RInv o w := hw ▸ RInv.runAll (RInv.new o gr) ops
  have hI : GInv o w := hw ▸ GInv.runAll (GInv.new o gr) hh
  have hk := hRI.shape_known
  have hcalls := C59_calls hw hF hl
  obtain ⟨calls, d, h1, h2, h3⟩ := draw_world hh hw hF hl (shownGeo o flat g0 gk) lk (geoOk_shown hg) flat
  obtain ⟨nG, nB⟩ := List.nodup_cons.mp hF.bodies_nodup
  set rest := bodyCalls o w w.ground ++ treeCalls o w F ++
      w.constraints.map (fun c => Graph.Ev.reg (.con c)) ++ w.controllers.map (fun c => Graph.Ev.reg (.ctrl c)) with hrest
  have hrest' : Graph.Ev.initParse w.ground :: bodyCalls o w w.ground ++ treeCalls o w F ++
      w.constraints.map (fun c => Graph.Ev.reg (.con c)) ++ w.controllers.map (fun c => Graph.Ev.reg (.ctrl c)) = .initParse w.ground :: rest := by
    simp [hrest]
  rw [hrest'] at hcalls
  rw [hcalls] at h1
  cases h1
  have hord : DOrd o [.body w.ground] rest := by
    rw [hrest]
    refine DOrd.append (DOrd.append (DOrd.append (bodyCalls_dord List.mem_cons_self)
      (treeCalls_dord hI hk hF.unfolds (fun _ h => h) ?_ ?_)) (DOrd.flat ?_)) (DOrd.flat ?_)
    · rw [mem_dafter]; exact .inl List.mem_cons_self
    · intro f hf hfb
      rw [mem_dafter]
      exact .inr ⟨.reg (.frame (.sub f)), (mem_bodyCalls hk).mpr (.inr (.inl ⟨f, hf, hfb, rfl⟩)), by simp [dgive]⟩
    · intro e he
      obtain ⟨c, _, rfl⟩ := List.mem_map.mp he
      simp [dneed]
    · intro e he
      obtain ⟨c, _, rfl⟩ := List.mem_map.mp he
      simp [dneed]
  have hnew : DNew o [.body w.ground] rest := by
    rw [hrest]
    refine DNew.append (DNew.append (DNew.append (DNew.noLink (bodyCalls_noLink hk)) (treeCalls_dnew hk hF.unfolds nB ?_)) (DNew.noLink ?_)) (DNew.noLink ?_)
    · intro r hr
      rcases mem_dafter.mp hr with hr | ⟨e, he, hr⟩
      · rw [List.mem_singleton] at hr
        rw [hr]; exact nG
      · rw [bodyCalls_give hk he hr]; exact nG
    · intro e he f0 j f1 h
      obtain ⟨c, _, rfl⟩ := List.mem_map.mp he
      cases h
    · intro e he f0 j f1 h
      obtain ⟨c, _, rfl⟩ := List.mem_map.mp he
      cases h
  have bodyOk : ∀ b ∈ w.ground :: F.bodies, ∀ e ∈ bodyCalls o w b, CallOk o w F g0 lab op argsort e := by
    intro b hb e he
    rcases (mem_bodyCalls hk).mp he with rfl | ⟨f, hf, hfb, rfl⟩ | ⟨s, hs', _, rfl⟩
    · trivial
    · exact ⟨by rw [show o.bodyOf (.sub f) = o.subBody f from rfl, hfb]; exact hb, fun x hx => by cases hx; exact hf⟩
    · exact ⟨hs', hs s hs'⟩
  have hok : ∀ e ∈ rest, CallOk o w F g0 lab op argsort e := by
    intro e he
    simp only [hrest, List.mem_append] at he
    rcases he with ((he | he) | he) | he
    · exact bodyOk _ List.mem_cons_self e he
    · rcases mem_treeCalls.mp he with ⟨l, hl, rfl⟩ | ⟨b, hb, he⟩
      · have hb := List.mem_cons_of_mem w.ground (unfolds_ends hF.unfolds hl).2.2.2
        refine ⟨hl, ⟨hb, ?_⟩, ⟨hb, fun x hx => by cases hx⟩, fun x hx => by rw [← hR.moving]; exact (hg.fixed l hl).2 x hx⟩
        intro x hx
        have := tree_known hI hF.unfolds (fun _ h => h) l hl
        rw [hx] at this
        exact this
      · exact bodyOk b (List.mem_cons_of_mem _ hb) e he
    · obtain ⟨c, _, rfl⟩ := List.mem_map.mp he; trivial
    · obtain ⟨c, _, rfl⟩ := List.mem_map.mp he; trivial
  have h0 : Lock o w F lab op argsort anims k [.body w.ground] [] ⟨initParse w.ground, [some "ground"], [], []⟩ (initParse w.ground) := by
    refine ⟨rfl, ?_, rfl, ?_, by simp, ?_, ?_, .nil⟩
    · have := hR.ground
      rw [hN.ground] at this
      simp only [idOf, Option.filter] at this
      simp only [play, initParse, List.zipWith_cons_cons, List.zipWith_nil_left, playNode]
      congr 2
    · intro f
      simp only [initParse, pget_cons, pget_nil, List.mem_singleton]
      split
      · rename_i h; simp [← h]
      · rename_i h; simp [Ne.symm h]
    · intro f hf
      rw [List.mem_singleton] at hf
      subst hf
      exact ⟨List.mem_cons_self, fun x hx => by cases hx⟩
    · intro l hl' hb
      rw [List.mem_singleton, FrameRef.body.injEq] at hb
      exact absurd (hb ▸ (unfolds_ends hF.unfolds hl').2.2.2) nG
  rw [draw, List.foldlM_cons] at h2
  obtain ⟨c, hc, hL⟩ := scene_all hR hN (unfolds_bodies hF.unfolds ▸ nB) rest h0 hord hnew hok (op := op) (argsort := argsort) h2
  have hframes : ∀ f, InWorld o w F f → ∃ i, PDict.get? c.d.frameNodes f = some i ∧ DrawnAt (play anims k c.ids c.d.nodes) i (poseOf o gk f) := by
    intro f hf
    obtain ⟨i, hi, hd⟩ := h3 f hf.1 (inWorld_known hf)
    refine ⟨i, hL.frames ▸ hi, ?_⟩
    rw [hL.nodes]
    have e : drawnPose o (shownGeo o flat g0 gk) flat f = poseOf o gk f := by
      cases f with
      | body b => simp [drawnPose, shownGeo, poseOf, bposeOf, Objs.bodyOf]
      | sub x =>
        cases hm : gk.moving x <;> cases flat <;> simp [drawnPose, shownGeo, hm, poseOf, bposeOf, Objs.bodyOf]
    rw [← e]; exact hd
  have hSh := hL.shapes
  rw [dshapes_eq, List.append_nil, List.forall₂_reverse_iff] at hSh
  have hcomp := (C59_complete hw hF hl hcalls).2.2.1
  refine ⟨_, c, hcalls, ?_, hframes, rest.filterMap evShape, nodup_evShape (List.nodup_cons.mp (C59_once hw hF hl hcalls)).2, fun s => ?_, ?_⟩
  · rw [scene, List.foldlM_cons]
    exact hc
  · rw [mem_evShape, ← hcomp s]
    simp
  · have hmem : ∀ s ∈ rest.filterMap evShape, InWorld o w F (o.shapeFrame s) := by
      intro s hs'
      have h1 := (hcomp s).mp (List.mem_cons_of_mem _ (mem_evShape.mp hs'))
      refine ⟨h1.2, fun x hx => ?_⟩
      have := hk s h1.1
      rw [hx] at this
      exact this
    refine ((List.forall₂_and_left _ _).mpr ⟨hmem, hSh⟩).imp ?_
    rintro s n ⟨hsW, hx, hp⟩
    obtain ⟨i, hi, hd⟩ := hframes _ hsW
    rw [hp] at hi
    cases hi
    exact ⟨hd, hx⟩

/-! ### what the log gives to the nodes -/

lemma getElem?_flatMap_range {β : Type} {f : ℕ → List β} {m : ℕ} (hf : ∀ k, (f k).length = m) {n k r : ℕ} (hk : k < n) (hr : r < m) :
    ((List.range n).flatMap f)[m * k + r]? = (f k)[r]? := by
  have hlen : ∀ n, ((List.range n).flatMap f).length = m * n := by
    intro n
    induction n with
    | zero => simp
    | succ n ih => rw [List.range_succ, List.flatMap_append, List.length_append, ih]; simp [hf]; ring
  induction n with
  | zero => omega
  | succ n ih =>
    rw [List.range_succ, List.flatMap_append]
    rcases Nat.lt_succ_iff_lt_or_eq.mp hk with h | rfl
    · rw [List.getElem?_append_left, ih h]
      rw [hlen]
      calc m * k + r < m * k + m := by omega
        _ = m * (k + 1) := by ring
        _ ≤ m * n := Nat.mul_le_mul_left _ h
    · rw [List.getElem?_append_right (by rw [hlen]; omega), hlen]
      simp

lemma matrixAt_flatten {rnd : ℝ → ℝ} {a : Nd} {k : ℕ} (hk : k < a.shape.headD 0) (i j : Fin 4) :
    matrixAt k ((flatten44 a).map rnd) i j = rnd (a.val [k, i, j]) := by
  have e : (flatten44 a)[16 * k + (4 * (i : ℕ) + j)]? = some (a.val [k, i, j]) := by
    unfold flatten44
    rw [getElem?_flatMap_range (by intro k; rfl) hk (by omega), getElem?_flatMap_range (by intro k; rfl) i.2 j.2]
    simp
  have : 16 * k + 4 * (i : ℕ) + j = 16 * k + (4 * (i : ℕ) + j) := by ring
  simp [matrixAt, this, e]

lemma find_transforms {rnd : ℝ → ℝ} {tl : Nd} (log : PDict Key Nd) (s : String) :
    (animations rnd tl ((log.filter fun kv => kv.1.1 = .transforms).map fun kv => (kv.1.2, kv.2))).find? (fun a => a.target = s) =
      (PDict.get? log (.transforms, s)).map fun a => ⟨s, (toList1 tl).map rnd, (flatten44 a).map rnd⟩ := by
  induction log with
  | nil => rfl
  | cons kv log ih =>
    obtain ⟨⟨g, t⟩, a⟩ := kv
    rw [pget_cons]
    simp only [List.filter_cons]
    by_cases hg : g = .transforms
    · subst hg
      by_cases ht : t = s
      · subst ht; simp [animations]
      · have : ¬ ((Group.transforms, t) = (Group.transforms, s)) := by simpa using ht
        rw [if_neg this, ← ih]
        simp [animations, ht]
    · have : ¬ ((g, t) = (Group.transforms, s)) := by simp [hg]
      rw [if_neg this, ← ih]
      simp [hg]

lemma val_matArray (H : Mat4) (i j : Fin 4) : (matArray H).val [(i : ℕ), (j : ℕ)] = H i j := by
  simp only [matArray, Fin.val_inj]
  rw [Finset.sum_eq_single i (by intro b _ hb; simp [hb]) (by simp), Finset.sum_eq_single j (by intro b _ hb; simp [hb]) (by simp)]
  simp

/-- the frames whose nodes are animated, and the matrix given by a view -/
def Animated (w : World) (F : Forest (FrameRef × ℕ × FrameRef) ℕ) (isMoving : ℕ → Bool) (flat : Bool) (f : FrameRef) : Prop :=
  (∃ x ∈ w.subframes, isMoving x = true ∧ f = .sub x) ∨ if flat then ∃ b ∈ w.ground :: F.bodies, f = .body b else ∃ l ∈ F.links, f = l.2.2

lemma mem_transformObjs {encF : FrameRef → ℕ} {encJ : ℕ → ℕ} {lw : LWorld} {isMoving : ℕ → Bool} (hW : Watches o w F isMoving encF encJ lw)
    {cfg : Cfg} (hf : cfg.flat = flat) (f : FrameRef) : encF f ∈ transformObjs cfg lw ↔ Animated w F isMoving flat f := by
  subst hf
  simp only [transformObjs, Animated, hW.moving, hW.bodies, hW.joints, List.mem_append, joints, List.map_map]
  rw [or_comm]
  refine or_congr ?_ ?_
  · simp only [List.mem_map, List.mem_filter]
    constructor
    · rintro ⟨x, ⟨h1, h2⟩, h3⟩; exact ⟨x, h1, h2, (hW.inj h3).symm⟩
    · rintro ⟨x, h1, h2, h3⟩; exact ⟨x, ⟨h1, h2⟩, by rw [h3]⟩
  · cases cfg.flat
    · simp only [Bool.false_eq_true, if_false, List.mem_map, Function.comp]
      constructor
      · rintro ⟨l, h1, h2⟩; rw [hW.frame1 l h1] at h2; exact ⟨l, h1, (hW.inj h2).symm⟩
      · rintro ⟨l, h1, h2⟩; exact ⟨l, h1, by rw [hW.frame1 l h1, h2]⟩
    · simp only [if_true, List.mem_map]
      constructor
      · rintro ⟨b, h1, h2⟩; exact ⟨b, h1, (hW.inj h2).symm⟩
      · rintro ⟨b, h1, h2⟩; exact ⟨b, h1, by rw [h2]⟩

lemma animated_inWorld {isMoving : ℕ → Bool} {encF : FrameRef → ℕ} {encJ : ℕ → ℕ} {lw : LWorld} (hW : Watches o w F isMoving encF encJ lw)
    (hI : GInv o w) (hF : IsTree o w F) {f : FrameRef} (h : Animated w F isMoving flat f) : InWorld o w F f := by
  rcases h with ⟨x, h1, h2, rfl⟩ | h
  · exact ⟨hW.attached x h1 h2, fun y hy => by cases hy; exact h1⟩
  · split at h
    · obtain ⟨b, hb, rfl⟩ := h
      exact ⟨hb, fun y hy => by cases hy⟩
    · obtain ⟨l, hl, rfl⟩ := h
      refine ⟨List.mem_cons_of_mem _ (unfolds_ends hF.unfolds hl).2.2.2, fun x hx => ?_⟩
      have := tree_known hI hF.unfolds (fun _ h => h) l hl
      rw [hx] at this
      exact this

lemma sceneNames_named {idStr : ℕ → String} {lw : LWorld} {n0 n1 : ℕ → Option String} (h : sceneNames idStr flat lw n0 = .ok n1) {cfg : Cfg} (hf : cfg.flat = flat) :
    (∀ e ∈ transformObjs cfg lw, n1 e ≠ none) ∧ ∀ e s, n0 e = some s → n1 e = some s := by
  subst hf
  unfold sceneNames at h
  simp only [bind, Except.bind] at h
  split at h
  · cases h
  rename_i n2 h2
  have k1 := nameE_keeps h2
  have k2 := nameE_keeps h
  refine ⟨fun e he => ?_, fun e s hs => ?_⟩
  · rcases List.mem_append.mp he with he | he
    · have hne := k1.2 e he
      obtain ⟨s, hs⟩ := Option.ne_none_iff_exists'.mp hne
      rw [k2.1 e s hs]; simp
    · exact k2.2 e he
  · exact k2.1 e s (k1.1 e s hs)

/-- every numbered object of `transformObjs` is an animated frame -/
lemma transformObjs_frame {encF : FrameRef → ℕ} {encJ : ℕ → ℕ} {lw : LWorld} {isMoving : ℕ → Bool} (hW : Watches o w F isMoving encF encJ lw)
    {cfg : Cfg} {e : ℕ} (he : e ∈ transformObjs cfg lw) : ∃ f, e = encF f := by
  rcases List.mem_append.mp he with he | he
  · split at he
    · rw [hW.bodies] at he
      obtain ⟨b, -, rfl⟩ := List.mem_map.mp he
      exact ⟨_, rfl⟩
    · rw [hW.joints, joints, List.map_map, List.map_map] at he
      obtain ⟨l, hl, rfl⟩ := List.mem_map.mp he
      exact ⟨_, hW.frame1 l hl⟩
  · rw [hW.moving] at he
    obtain ⟨x, -, rfl⟩ := List.mem_map.mp he
    exact ⟨_, rfl⟩

lemma transformObjs_nodup {encF : FrameRef → ℕ} {encJ : ℕ → ℕ} {lw : LWorld} {isMoving : ℕ → Bool} (hW : Watches o w F isMoving encF encJ lw)
    (hF : IsTree o w F) (hR : RInv o w) (hfix : ∀ l ∈ F.links, ∀ x, l.2.2 = .sub x → isMoving x = false) (cfg : Cfg) : (transformObjs cfg lw).Nodup := by
  obtain ⟨nG, nB⟩ := List.nodup_cons.mp hF.bodies_nodup
  unfold transformObjs
  rw [List.nodup_append]
  refine ⟨?_, ?_, ?_⟩
  · split
    · rw [hW.bodies]
      exact List.Nodup.map (fun a b h => FrameRef.body.inj (hW.inj h)) hF.bodies_nodup
    · rw [hW.joints, joints, List.map_map, List.map_map]
      rw [show F.links.map ((lw.frame1 ∘ encJ) ∘ fun l => l.2.1) = F.links.map fun l => encF l.2.2 from List.map_congr_left fun l hl => hW.frame1 l hl]
      have hb : (F.links.map fun l => o.bodyOf l.2.2).Nodup := unfolds_bodies hF.unfolds ▸ nB
      have : (F.links.map fun l => l.2.2).Nodup := by
        refine List.Nodup.of_map o.bodyOf ?_
        rw [List.map_map]; exact hb
      rw [show (F.links.map fun l => encF l.2.2) = (F.links.map fun l => l.2.2).map encF by rw [List.map_map]; rfl]
      exact this.map hW.inj
  · rw [hW.moving]
    exact List.Nodup.map (fun a b h => FrameRef.sub.inj (hW.inj h)) (hR.subframes.filter _)
  · intro a ha b hb
    rw [hW.moving] at hb
    obtain ⟨x, hx, rfl⟩ := List.mem_map.mp hb
    rintro rfl
    split at ha
    · rw [hW.bodies] at ha
      obtain ⟨b, -, h⟩ := List.mem_map.mp ha
      have := hW.inj h
      cases this
    · rw [hW.joints, joints, List.map_map, List.map_map] at ha
      obtain ⟨l, hl, h⟩ := List.mem_map.mp ha
      have h' : encF l.2.2 = encF (.sub x) := by rw [← hW.frame1 l hl]; exact h
      have := hfix l hl x (hW.inj h')
      rw [(List.mem_filter.mp hx).2] at this
      cases this

end

lemma animated_names {o : Objs} {lim gr : ℕ} {ops : List Op} (hh : AllowedHistory o lim (World.new gr) ops) {w : World}
    (hw : w = runAll o lim (World.new gr) ops) {F : Forest (FrameRef × ℕ × FrameRef) ℕ} (hF : IsTree o w F)
    {g0 : Geo} {lw : LWorld} {encF : FrameRef → ℕ} {encJ : ℕ → ℕ} (hW : Watches o w F g0.moving encF encJ lw)
    -- the scene
    {idStr : ℕ → String} {flat : Bool} {n0 n1 : ℕ → Option String} (hsn : sceneNames idStr flat lw n0 = .ok n1) {lab : Labels}
    (hlab : ∀ f, InWorld o w F f → lab.frame f = n1 (encF f)) (hN : GoodNames o w F lab)
    -- the log
    {cfg : Cfg} (hf : cfg.flat = flat) {names : ℕ → Option String} (hkeep : ∀ e s, n1 e = some s → names e = some s)
    (hfix : ∀ l ∈ F.links, ∀ x, l.2.2 = .sub x → g0.moving x = false) :
    (∀ f, Animated w F g0.moving flat f → ∃ s, lab.frame f = some s ∧ names (encF f) = some s ∧ s ≠ "") ∧
      ((transformObjs cfg lw).map fun i => (names i).getD "").Nodup := by
  have hRI : RInv o w := hw ▸ RInv.runAll (RInv.new o gr) ops
  have hI : GInv o w := hw ▸ GInv.runAll (GInv.new o gr) hh
  have hnamed := (sceneNames_named hsn hf).1
  -- the names of the animated frames
  have hname : ∀ f, Animated w F g0.moving flat f → ∃ s, lab.frame f = some s ∧ names (encF f) = some s ∧ s ≠ "" := by
    intro f hfA
    have hfW := animated_inWorld hW hI hF hfA
    obtain ⟨s, hs⟩ := Option.ne_none_iff_exists'.mp (hnamed _ ((mem_transformObjs hW hf f).mpr hfA))
    have e : lab.frame f = some s := by rw [hlab f hfW]; exact hs
    exact ⟨s, e, hkeep _ _ hs, fun h => hN.nonempty f hfW (h ▸ e)⟩
  have hnd : ((transformObjs cfg lw).map fun i => (names i).getD "").Nodup := by
    refine List.Nodup.map_on ?_ (transformObjs_nodup hW hF hRI hfix cfg)
    intro a ha b hb hab
    obtain ⟨fa, rfl⟩ := transformObjs_frame hW ha
    obtain ⟨fb, rfl⟩ := transformObjs_frame hW hb
    have hA := (mem_transformObjs hW hf fa).mp ha
    have hB := (mem_transformObjs hW hf fb).mp hb
    obtain ⟨sa, la, na, -⟩ := hname fa hA
    obtain ⟨sb, lb, nb, -⟩ := hname fb hB
    rw [na, nb] at hab
    simp only [Option.getD_some] at hab
    subst hab
    rw [hN.inj fa fb sa (animated_inWorld hW hI hF hA) (animated_inWorld hW hI hF hB) la lb]
  exact ⟨hname, hnd⟩

lemma replay_core {o : Objs} {lim gr : ℕ} {ops : List Op} (hh : AllowedHistory o lim (World.new gr) ops) {w : World}
    (hw : w = runAll o lim (World.new gr) ops) {F : Forest (FrameRef × ℕ × FrameRef) ℕ} (hF : IsTree o w F) {lim' : ℕ} (hl : depth F ≤ lim')
    {g0 : Geo} {lw : LWorld} {encF : FrameRef → ℕ} {encJ : ℕ → ℕ} (hW : Watches o w F g0.moving encF encJ lw)
    -- the scene
    {idStr : ℕ → String} {flat : Bool} {n0 n1 : ℕ → Option String} (hsn : sceneNames idStr flat lw n0 = .ok n1) {lab : Labels}
    (hlab : ∀ f, InWorld o w F f → lab.frame f = n1 (encF f)) (hN : GoodNames o w F lab) (op : Opts) (argsort : Vec3 → Equiv.Perm (Fin 3))
    (hs : ∀ s ∈ w.shapes, ∃ r, shapeXform op argsort (lab.geo s) = .ok r)
    -- the log
    {cfg : Cfg} (ht : cfg.transforms = true) (hf : cfg.flat = flat) {len : ℕ} {l : Logger} {names : ℕ → Option String}
    (hinit : Log.init idStr cfg lw len = .ok (l, names)) (hkeep : ∀ e s, n1 e = some s → names e = some s)
    (views : List View) (hlen : views.length + 1 = len) (hv : ∀ v ∈ views, Shaped lw v)
    (gs : ℕ → Geo) (lks : ℕ → FrameRef × ℕ × FrameRef → Link)
    (hsee : ∀ k (hk : k < views.length), Sees o w F encF encJ views[k] (gs k) ∧ GeoOk o (gs k) w.ground F (lks k) ∧
      (gs k).moving = g0.moving ∧ ∀ x, g0.moving x = false → (gs k).bpose x = g0.bpose x)
    (hfix : ∀ l ∈ F.links, ∀ x, l.2.2 = .sub x → g0.moving x = false)
    {rnd : ℝ → ℝ} (hr : ∀ v ∈ views, ∀ e i j, rnd (v.pose e i j) = v.pose e i j ∧ rnd (v.bpose e i j) = v.bpose e i j)
    {ext : String} (hext : fileTypeOf ext ≠ .unknown) {file : PDict Key Nd}
    (hdoc : ∀ key shape q, Documented cfg lw (fun i => (names i).getD "") key shape q → ∃ a, PDict.get? file key = some a ∧ Stacks a views shape q)
    (honly : ∀ s a, PDict.get? file (.transforms, s) = some a → ∃ shape q, Documented cfg lw (fun i => (names i).getD "") (.transforms, s) shape q) :
    ∃ anims, writeAnimation rnd file ext none = .ok anims ∧ (∀ a ∈ anims, a.input = views.map fun v => rnd v.time) ∧
      ∀ k < views.length, ∃ calls c, parse o w lim' = .ok calls ∧ scene o g0 flat lab op argsort calls = .ok c ∧
        Shows o w F lab op argsort c (play anims k c.ids c.d.nodes) (gs k) := by
  have hRI : RInv o w := hw ▸ RInv.runAll (RInv.new o gr) ops
  have hI : GInv o w := hw ▸ GInv.runAll (GInv.new o gr) hh
  obtain ⟨hname, hnd⟩ := animated_names hh hw hF hW hsn hlab hN hf hkeep hfix
  obtain ⟨tl, htl, hstl, hvtl⟩ := hdoc _ _ _ .timeline
  refine ⟨animations rnd tl ((file.filter fun kv => kv.1.1 = .transforms).map fun kv => (kv.1.2, kv.2)), ?_, ?_, ?_⟩
  · simp only [writeAnimation, Option.getD_none, htl]
  · intro a ha
    obtain ⟨kv, -, rfl⟩ := List.mem_map.mp ha
    simp only [toList1, hstl, List.headD_cons, List.map_map]
    apply List.ext_getElem (by simp)
    intro n h1 h2
    simp only [List.length_map, List.length_range] at h1
    simp only [List.getElem_map, List.getElem_range, Function.comp]
    rw [hvtl n h1 [] List.Forall₂.nil]
    rfl
  · intro k hk
    obtain ⟨hS, hG, hm, hst⟩ := hsee k hk
    set anims := animations rnd tl ((file.filter fun kv => kv.1.1 = .transforms).map fun kv => (kv.1.2, kv.2)) with hanims
    -- the matrix of an animated frame
    have hval : ∀ f H, Animated w F g0.moving flat f →
        (∃ q : View → Nd, Documented cfg lw (fun i => (names i).getD "") (.transforms, (names (encF f)).getD "") [4, 4] q ∧ q views[k] = matArray H) →
        (∀ i j, rnd (H i j) = H i j) → (idOf (lab.frame f)).bind (keyOf anims k) = some H := by
      rintro f H hfA ⟨q, hD, hq⟩ hrH
      obtain ⟨s, h1, h2, h3⟩ := hname f hfA
      obtain ⟨a, ha, hsh, hva⟩ := hdoc _ _ _ hD
      rw [h2, Option.getD_some] at ha
      rw [h1, show idOf (some s) = some s by simp [idOf, Option.filter, h3], Option.bind_some, keyOf, hanims, find_transforms, ha]
      simp only [Option.map_some, Option.some.injEq]
      ext i j
      rw [matrixAt_flatten (by rw [hsh]; exact hk), hva k hk _ (by simp [InShape]), hq, val_matArray, hrH]
    have hnone : ∀ f, InWorld o w F f → ¬ Animated w F g0.moving flat f → (idOf (lab.frame f)).bind (keyOf anims k) = none := by
      intro f hfW hfA
      cases hlf : lab.frame f with
      | none => rfl
      | some s =>
        rw [show idOf (some s) = some s by
          have : s ≠ "" := fun h => hN.nonempty f hfW (h ▸ hlf)
          simp [idOf, Option.filter, this], Option.bind_some, keyOf, hanims, find_transforms]
        cases ha : PDict.get? file (.transforms, s) with
        | none => rfl
        | some a =>
          exfalso
          obtain ⟨shape, q, hD⟩ := honly s a ha
          have : ∃ e ∈ transformObjs cfg lw, (names e).getD "" = s := by
            generalize hkey : (Group.transforms, s) = key at hD
            cases hD with
            | timeline | gpos | gvel | wgvel | mass | admittance | nleffects | gforce => cases hkey
            | body h hf' hb => cases hkey; exact ⟨_, List.mem_append_left _ (by rw [if_pos hf']; exact hb), rfl⟩
            | joint h hf' hj => cases hkey; exact ⟨_, List.mem_append_left _ (by rw [if_neg (by simp [hf'])]; exact List.mem_map.mpr ⟨_, hj, rfl⟩), rfl⟩
            | movingFlat h hf' hb => cases hkey; exact ⟨_, List.mem_append_right _ hb, rfl⟩
            | movingRel h hf' hb => cases hkey; exact ⟨_, List.mem_append_right _ hb, rfl⟩
          obtain ⟨e, he, hes⟩ := this
          obtain ⟨f', rfl⟩ := transformObjs_frame hW he
          have hA' := (mem_transformObjs hW hf f').mp he
          obtain ⟨s', h1, h2, -⟩ := hname f' hA'
          rw [h2, Option.getD_some] at hes
          subst hes
          exact hfA (hN.inj f f' s' hfW (animated_inWorld hW hI hF hA') hlf h1 ▸ hA')
    have hvm : views[k] ∈ views := List.getElem_mem hk
    refine replay_world hh hw hF hl hG ⟨hm, hst, ?_, ?_, ?_, ?_, ?_, ?_, ?_, ?_⟩ hN hs
    · have hgW : InWorld o w F (.body w.ground) := ⟨List.mem_cons_self, fun x hx => by cases hx⟩
      by_cases hA : Animated w F g0.moving flat (.body w.ground)
      · rcases hA with ⟨x, _, _, h⟩ | h
        · cases h
        · by_cases hff : flat = true
          · rw [hval (.body w.ground) 1 (.inr h) ⟨fun v => matArray (v.pose (encF (.body w.ground))), ?_, ?_⟩ ?_]
            · rfl
            · exact Documented.body (name := fun i => (names i).getD "") ht (hf.trans hff) (by rw [hW.bodies]; exact List.mem_map.mpr ⟨_, List.mem_cons_self, rfl⟩)
            · simp only [hS.frame _ hgW, poseOf, bposeOf, Objs.bodyOf, hG.ground, Matrix.mul_one]
            · intro i j
              have := (hr _ hvm (encF (.body w.ground)) i j).1
              rwa [hS.frame _ hgW, poseOf, bposeOf, Objs.bodyOf, hG.ground, Matrix.mul_one] at this
          · rw [if_neg hff] at h
            obtain ⟨l0, hl0, h⟩ := h
            have := (unfolds_ends hF.unfolds hl0).2.2.2
            rw [← h] at this
            exact absurd this (List.nodup_cons.mp hF.bodies_nodup).1
      · rw [hnone _ hgW hA]; rfl
    · intro hff b hb
      have hbW : InWorld o w F (.body b) := ⟨hb, fun x hx => by cases hx⟩
      have hp : poseOf o (gs k) (.body b) = (gs k).bodyPose b := by simp [poseOf, bposeOf, Objs.bodyOf]
      refine hval (.body b) _ (.inr (by rw [if_pos hff]; exact ⟨b, hb, rfl⟩)) ⟨fun v => matArray (v.pose (encF (.body b))), ?_, ?_⟩ ?_
      · exact Documented.body (name := fun i => (names i).getD "") ht (hf.trans hff) (by rw [hW.bodies]; exact List.mem_map.mpr ⟨b, hb, rfl⟩)
      · simp only [hS.frame _ hbW, hp]
      · intro i j
        have := (hr _ hvm (encF (.body b)) i j).1
        rwa [hS.frame _ hbW, hp] at this
    · intro hff x hx hmx
      refine hval (.sub x) _ (.inl ⟨x, hx.2 x rfl, hmx, rfl⟩) ⟨fun v => matArray (v.pose (encF (.sub x))), ?_, ?_⟩ ?_
      · exact Documented.movingFlat (name := fun i => (names i).getD "") ht (hf.trans hff) (by rw [hW.moving]; exact List.mem_map.mpr ⟨x, List.mem_filter.mpr ⟨hx.2 x rfl, hmx⟩, rfl⟩)
      · simp only [hS.frame _ hx]
      · intro i j
        have := (hr _ hvm (encF (.sub x)) i j).1
        rwa [hS.frame _ hx] at this
    · intro hff x hx hmx
      refine hnone _ hx ?_
      rintro (⟨y, _, hy, h⟩ | h)
      · cases h; rw [hmx] at hy; cases hy
      · rw [if_pos hff] at h
        obtain ⟨b, -, h⟩ := h
        cases h
    · intro hff l0 hl0
      refine hval l0.2.2 _ (.inr (by rw [if_neg (by simp [hff])]; exact ⟨l0, hl0, rfl⟩)) ⟨fun v => matArray (v.pose (encJ l0.2.1)), ?_, ?_⟩ ?_
      · rw [← hW.frame1 l0 hl0]
        exact Documented.joint (name := fun i => (names i).getD "") ht (hf.trans hff) (by rw [hW.joints, joints, List.map_map]; exact List.mem_map.mpr ⟨l0, hl0, rfl⟩)
      · simp only [hS.joint l0 hl0]
      · intro i j
        have := (hr _ hvm (encJ l0.2.1) i j).1
        rwa [hS.joint l0 hl0] at this
    · intro hff x hx hmx
      refine hval (.sub x) _ (.inl ⟨x, hx.2 x rfl, hmx, rfl⟩) ⟨fun v => matArray (v.bpose (encF (.sub x))), ?_, ?_⟩ ?_
      · exact Documented.movingRel (name := fun i => (names i).getD "") ht (hf.trans hff) (by rw [hW.moving]; exact List.mem_map.mpr ⟨x, List.mem_filter.mpr ⟨hx.2 x rfl, hmx⟩, rfl⟩)
      · simp only [hS.bpose _ hx]
      · intro i j
        have := (hr _ hvm (encF (.sub x)) i j).2
        rwa [hS.bpose _ hx] at this
    · intro hff l0 hl0 x hx
      have hb := (unfolds_ends hF.unfolds hl0).2.2.2
      rw [hx] at hb
      refine hnone _ ⟨List.mem_cons_of_mem _ hb, fun y hy => by cases hy⟩ ?_
      rintro (⟨y, _, hy, h⟩ | h)
      · cases h
      · rw [if_neg (by simp [hff])] at h
        obtain ⟨l1, hl1, h⟩ := h
        have hbn : (F.links.map fun l => o.bodyOf l.2.2).Nodup := unfolds_bodies hF.unfolds ▸ (List.nodup_cons.mp hF.bodies_nodup).2
        have := List.inj_on_of_nodup_map hbn hl0 hl1 (by rw [hx, ← h]; rfl)
        rw [← this, hx] at h
        cases h
    · intro hff x hx hmx hno
      refine hnone _ hx ?_
      rintro (⟨y, _, hy, h⟩ | h)
      · cases h; rw [hmx] at hy; cases hy
      · rw [if_neg (by simp [hff])] at h
        obtain ⟨l1, hl1, h⟩ := h
        exact hno l1 hl1 h.symm

lemma get_mem {K A : Type} [DecidableEq K] {d : PDict K A} {k : K} {a : A} (h : PDict.get? d k = some a) : k ∈ d.map Prod.fst := by
  simp only [PDict.get?, Option.map_eq_some_iff] at h
  obtain ⟨kv, hkv, -⟩ := h
  have h1 := List.mem_of_find?_eq_some hkv
  have h2 := List.find?_some hkv
  simp only [decide_eq_true_eq] at h2
  exact List.mem_map.mpr ⟨kv, h1, h2⟩

/-- C99: a world is logged during a run (`PickleLogger` with `save_transforms`), its scene is written at some time (before, after,
at any configuration `g0`), with the same value of `flat`, and the two are put together by `write_collada_animation`.  If the names are good
and the rounding changes nothing, then the scene at the `k`-th key shows every body and every registered subframe at its pose at
the `k`-th step, and the keys are at the recorded times. -/
theorem C99_replay {o : Objs} {lim gr : ℕ} {ops : List Op} (hh : AllowedHistory o lim (World.new gr) ops) {w : World}
    (hw : w = runAll o lim (World.new gr) ops) {F : Forest (FrameRef × ℕ × FrameRef) ℕ} (hF : IsTree o w F) {lim' : ℕ} (hl : depth F ≤ lim')
    {g0 : Geo} {lw : LWorld} {encF : FrameRef → ℕ} {encJ : ℕ → ℕ} (hW : Watches o w F g0.moving encF encJ lw)
    -- the scene
    {idStr : ℕ → String} {flat : Bool} {n0 n1 : ℕ → Option String} (hsn : sceneNames idStr flat lw n0 = .ok n1) {lab : Labels}
    (hlab : ∀ f, InWorld o w F f → lab.frame f = n1 (encF f)) (hN : GoodNames o w F lab) (op : Opts) (argsort : Vec3 → Equiv.Perm (Fin 3))
    (hs : ∀ s ∈ w.shapes, ∃ r, shapeXform op argsort (lab.geo s) = .ok r)
    -- the log
    {cfg : Cfg} (ht : cfg.transforms = true) (hf : cfg.flat = flat) {len : ℕ} {l : Logger} {names : ℕ → Option String}
    (hinit : Log.init idStr cfg lw len = .ok (l, names)) (hkeep : ∀ e s, n1 e = some s → names e = some s)
    (views : List View) (hlen : views.length + 1 = len) (hv : ∀ v ∈ views, Shaped lw v)
    (gs : ℕ → Geo) (lks : ℕ → FrameRef × ℕ × FrameRef → Link)
    (hsee : ∀ k (hk : k < views.length), Sees o w F encF encJ views[k] (gs k) ∧ GeoOk o (gs k) w.ground F (lks k) ∧
      (gs k).moving = g0.moving ∧ ∀ x, g0.moving x = false → (gs k).bpose x = g0.bpose x)
    (hfix : ∀ l ∈ F.links, ∀ x, l.2.2 = .sub x → g0.moving x = false)
    {rnd : ℝ → ℝ} (hr : ∀ v ∈ views, ∀ e i j, rnd (v.pose e i j) = v.pose e i j ∧ rnd (v.bpose e i j) = v.bpose e i j)
    {ext : String} (hext : ext ∈ ["pickle", "pkl"]) :
    ∃ l' anims, views.foldlM (update cfg lw names) l = .ok l' ∧ writeAnimation rnd (pickleFinish l') ext none = .ok anims ∧
      (∀ a ∈ anims, a.input = views.map fun v => rnd v.time) ∧
      ∀ k < views.length, ∃ calls c, parse o w lim' = .ok calls ∧ scene o g0 flat lab op argsort calls = .ok c ∧
        Shows o w F lab op argsort c (play anims k c.ids c.d.nodes) (gs k) := by
  obtain ⟨hname, hnd⟩ := animated_names hh hw hF hW hsn hlab hN hf hkeep hfix
  obtain ⟨l', hrun, hdoc, honly⟩ := C78_records hinit (fun _ => hnd) views hlen hv
  obtain ⟨anims, h1, h2, h3⟩ := replay_core hh hw hF hl hW hsn hlab hN op argsort hs ht hf hinit hkeep views hlen hv gs lks hsee hfix hr (ext := ext) (by
    simp only [List.mem_cons, List.not_mem_nil, or_false] at hext
    rcases hext with rfl | rfl <;> simp [fileTypeOf]) hdoc (fun s a ha => honly _ (get_mem ha))
  exact ⟨l', anims, hrun, h1, h2, h3⟩

/-- C99 for an `Hdf5Logger` that records the transforms only (with the states or the model `finish` raises or distorts them: C66). -/
theorem C99_hdf5 {o : Objs} {lim gr : ℕ} {ops : List Op} (hh : AllowedHistory o lim (World.new gr) ops) {w : World}
    (hw : w = runAll o lim (World.new gr) ops) {F : Forest (FrameRef × ℕ × FrameRef) ℕ} (hF : IsTree o w F) {lim' : ℕ} (hl : depth F ≤ lim')
    {g0 : Geo} {lw : LWorld} {encF : FrameRef → ℕ} {encJ : ℕ → ℕ} (hW : Watches o w F g0.moving encF encJ lw)
    -- the scene
    {idStr : ℕ → String} {flat : Bool} {n0 n1 : ℕ → Option String} (hsn : sceneNames idStr flat lw n0 = .ok n1) {lab : Labels}
    (hlab : ∀ f, InWorld o w F f → lab.frame f = n1 (encF f)) (hN : GoodNames o w F lab) (op : Opts) (argsort : Vec3 → Equiv.Perm (Fin 3))
    (hs : ∀ s ∈ w.shapes, ∃ r, shapeXform op argsort (lab.geo s) = .ok r)
    -- the log
    {cfg : Cfg} (ht : cfg.transforms = true) (hf : cfg.flat = flat) {len : ℕ} {l : Logger} {names : ℕ → Option String}
    (hinit : Log.init idStr cfg lw len = .ok (l, names)) (hkeep : ∀ e s, n1 e = some s → names e = some s)
    (views : List View) (hlen : views.length + 1 = len) (hv : ∀ v ∈ views, Shaped lw v)
    (gs : ℕ → Geo) (lks : ℕ → FrameRef × ℕ × FrameRef → Link)
    (hsee : ∀ k (hk : k < views.length), Sees o w F encF encJ views[k] (gs k) ∧ GeoOk o (gs k) w.ground F (lks k) ∧
      (gs k).moving = g0.moving ∧ ∀ x, g0.moving x = false → (gs k).bpose x = g0.bpose x)
    (hfix : ∀ l ∈ F.links, ∀ x, l.2.2 = .sub x → g0.moving x = false)
    (hst : cfg.state = false) (hmd : cfg.model = false)
    {rnd : ℝ → ℝ} (hr : ∀ v ∈ views, ∀ e i j, rnd (v.pose e i j) = v.pose e i j ∧ rnd (v.bpose e i j) = v.bpose e i j)
    {ext : String} (hext : ext ∈ ["hdf5", "h5"]) :
    ∃ l' file anims, views.foldlM (update cfg lw names) l = .ok l' ∧ hdf5Finish l' = .ok file ∧ writeAnimation rnd file ext none = .ok anims ∧
      (∀ a ∈ anims, a.input = views.map fun v => rnd v.time) ∧
      ∀ k < views.length, ∃ calls c, parse o w lim' = .ok calls ∧ scene o g0 flat lab op argsort calls = .ok c ∧
        Shows o w F lab op argsort c (play anims k c.ids c.d.nodes) (gs k) := by
  obtain ⟨hname, hnd⟩ := animated_names hh hw hF hW hsn hlab hN hf hkeep hfix
  obtain ⟨l', hrun, hdoc, honly⟩ := C78_records hinit (fun _ => hnd) views hlen hv
  obtain ⟨file, hfile, hfdoc⟩ := C66_partial hinit hst hmd (fun _ => hnd) hlen hv hrun
  obtain ⟨anims, h1, h2, h3⟩ := replay_core hh hw hF hl hW hsn hlab hN op argsort hs ht hf hinit hkeep views hlen hv gs lks hsee hfix hr (ext := ext) (by
    simp only [List.mem_cons, List.not_mem_nil, or_false] at hext
    rcases hext with rfl | rfl <;> simp [fileTypeOf]) hfdoc (fun s a ha => by
    obtain ⟨b, hb, -⟩ := (forall2_get (hdf5_forall hfile) (.transforms, s)).2 a ha
    exact honly _ (get_mem hb))
  exact ⟨l', file, anims, hrun, hfile, h1, h2, h3⟩

/-- C99: a scene written before the run: the logger keeps its names. -/
theorem C99_before {idStr : ℕ → String} {flat : Bool} {lw : LWorld} {n0 n1 : ℕ → Option String} (_hsn : sceneNames idStr flat lw n0 = .ok n1)
    (hlater : ∀ e s, n1 e = some s → lw.names e = some s) {cfg : Cfg} {len : ℕ} {l : Logger} {names : ℕ → Option String}
    (hinit : Log.init idStr cfg lw len = .ok (l, names)) : ∀ e s, n1 e = some s → names e = some s := by
  intro e s hs
  have h := hlater e s hs
  unfold Log.init at hinit
  simp only [bind, Except.bind] at hinit
  split at hinit
  · cases hinit
  rename_i x hx
  obtain ⟨k1, -⟩ := initState_ok hx
  split at hinit
  · cases hinit
  rename_i y hy
  obtain ⟨k2, -⟩ := initTransforms_ok hy
  cases hinit
  exact k2 e s (k1 e s h)

/-- C99: a scene written after the run, with the same `flat`: everything it needs has a name. -/
theorem C99_after {idStr : ℕ → String} {flat : Bool} {lw : LWorld} {cfg : Cfg} (hf : cfg.flat = flat) {names n1 : ℕ → Option String}
    (hn : ∀ e ∈ transformObjs cfg lw, names e ≠ none) (hsn : sceneNames idStr flat lw names = .ok n1) :
    ∀ e s, n1 e = some s → names e = some s := by
  subst hf
  have key : ∀ {n n' : ℕ → Option String} {S : Names.Seq}, (∀ e ∈ S.first, n e ≠ none) → nameE idStr n S = .ok n' → n' = n := by
    intro n n' S h1 h2
    obtain ⟨rfl, -⟩ := nameE_ok h2
    funext e
    obtain ⟨-, k2, k3⟩ := C62_named idStr n S true
    by_cases he : e ∈ S.first
    · obtain ⟨s, hs⟩ := Option.ne_none_iff_exists'.mp (h1 e he)
      rw [k2 e s hs, hs]
    · exact k3 e he
  unfold sceneNames at hsn
  simp only [bind, Except.bind] at hsn
  split at hsn
  · cases hsn
  rename_i n2 h2
  obtain rfl := key (by intro e he; exact hn e (List.mem_append_left _ he)) h2
  obtain rfl := key (by intro e he; exact hn e (List.mem_append_right _ he)) hsn
  intro e s h; exact h

/-- C99: with its default arguments, `visu_collada.view(scene, log)` never shows an animation: it gives the HDF5 group as the type of the file. -/
theorem C99_view_false (rnd : ℝ → ℝ) (log : PDict Key Nd) (ext : String) : viewAnimation rnd log ext = .error .nameError := by
  have : fileTypeOf ((some "/" : Option String).getD ext) = .unknown := by simp [fileTypeOf]
  simp only [viewAnimation, writeAnimation, this]

/-! ### An arm that slides, carrying a moving subframe and a box -/

noncomputable section
def exCP (k : ℝ) : Mat4 := mkH 1 ![k, 0, 0]
def exCB (k : ℝ) : Mat4 := mkH 1 ![0, k, 0]
def exCG (k : ℝ) : Geo := ⟨fun _ => true, fun _ => exCB k, fun _ => exCP k, fun b => if b = 0 then 1 else exCP k, fun _ => true⟩
def exCL (k : ℝ) : FrameRef × ℕ × FrameRef → Link := fun _ => ⟨0, 0, ⟨exCP k, 0, 0, 0, 0⟩, 1, 1⟩
def exCencF : FrameRef → ℕ
  | .body b => 2 * b
  | .sub x => 2 * x + 1
def exCnames : ℕ → Option String := fun i => some (if i = 0 then "ground" else if i = 2 then "arm" else if i = 1 then "tip" else "slide")
def exCW : LWorld := ⟨[10], [0, 2], [1], fun _ => 2, exCnames, fun _ => [1], fun _ => 1, 1⟩
def exCLab : Labels := ⟨fun f => exCnames (exCencF f), fun _ => some "box", fun _ => .box ![1, 1, 1]⟩
def exCV (k : ℝ) : View := ⟨k, fun _ => zeros [1], fun _ => zeros [1],
  fun e => if e = 0 then 1 else if e = 1 then exCP k * exCB k else exCP k, fun _ => exCB k, zeros [1], zeros [1, 1], zeros [1, 1], zeros [1, 1], zeros [1]⟩
end

lemma exC_geo (k : ℝ) : GeoOk exDO (exCG k) 0 exDF (exCL k) := by
  have e : invBody (1 : Mat4) = 1 := by
    have := isRigid_one.mul_invBody
    rwa [Matrix.one_mul] at this
  refine ⟨?_, ?_, ?_, ?_, rfl, fun l hl => by simp [exDF, Forest.links] at hl; subst hl; exact isRigid_one, ?_⟩
  · intro l hl; simp [exDF, Forest.links] at hl; subst hl; rfl
  · intro l hl; simp [exDF, Forest.links] at hl; subst hl; rfl
  · intro l hl; simp [exDF, Forest.links] at hl; subst hl; rfl
  · intro x hx
    simp only [worldGeometric, exDF, Forest.map, updateGeometric, List.append_nil, List.mem_singleton] at hx
    subst hx
    simp [exCG, geoStep, relPose, exCL, e]
  · intro l hl; simp [exDF, Forest.links] at hl; subst hl; simp

lemma exC_inWorld {f : FrameRef} : InWorld exDO (runAll exDO 9 (World.new 0) exDOps) exDF f ↔ f = .body 0 ∨ f = .body 1 ∨ f = .sub 0 := by
  have h1 : (runAll exDO 9 (World.new 0) exDOps).ground = 0 := rfl
  have h2 : (runAll exDO 9 (World.new 0) exDOps).subframes = [0] := rfl
  rw [InWorld, h1, h2]
  cases f with
  | body b => simp [exDF, Forest.bodies, Objs.bodyOf]
  | sub x => simp [exDF, Forest.bodies, Objs.bodyOf, exDO]

lemma exC_watches (k : ℝ) : Watches exDO (runAll exDO 9 (World.new 0) exDOps) exDF (exCG k).moving exCencF (fun j => j + 10) exCW := by
  refine ⟨?_, rfl, rfl, rfl, ?_, ?_⟩
  · intro a b h
    cases a <;> cases b <;> simp only [exCencF] at h
    · congr 1; omega
    · omega
    · omega
    · congr 1; omega
  · intro l hl; simp [exDF, Forest.links] at hl; subst hl; rfl
  · intro x _ _; change 1 ∈ [0, 1]; simp

lemma exC_names : GoodNames exDO (runAll exDO 9 (World.new 0) exDOps) exDF exCLab := by
  refine ⟨rfl, ?_, ?_, ?_⟩
  · intro f hf
    rcases exC_inWorld.mp hf with rfl | rfl | rfl <;> simp [exCLab, exCnames, exCencF]
  · intro f f' s hf hf' h h'
    rcases exC_inWorld.mp hf with rfl | rfl | rfl <;> rcases exC_inWorld.mp hf' with rfl | rfl | rfl <;>
      first
        | rfl
        | (exfalso; rw [← h'] at h; simp [exCLab, exCnames, exCencF] at h)
  · rintro f s hf h ⟨x, -, u, hu, ht⟩
    obtain rfl : "box" = u := by simpa [exCLab] using hu
    have hs : s = "ground" ∨ s = "arm" ∨ s = "tip" := by
      rcases exC_inWorld.mp hf with rfl | rfl | rfl <;> simp [exCLab, exCnames, exCencF] at h <;> simp [← h]
    have hb : s.toList.head? = some 'b' := by
      rcases ht with rfl | ⟨i, rfl⟩
      · rfl
      · simp
    rcases hs with rfl | rfl | rfl <;> simp at hb

/-- The hypotheses of C99 are met, in both modes, by any number of steps of the sliding arm (its scene is written at the
position 5): key `k` shows the subframe at `(k, k, 0)`, although in flat mode the scene alone misplaces it (C76). -/
example (flat : Bool) (n : ℕ) : ∃ l l' anims, Log.init (fun _ => "") ⟨true, true, true, flat⟩ exCW (n + 1) = .ok (l, exCnames) ∧
    ((List.range n).map fun k : ℕ => exCV k).foldlM (update ⟨true, true, true, flat⟩ exCW exCnames) l = .ok l' ∧
    writeAnimation id (pickleFinish l') "pkl" none = .ok anims ∧
    ∀ k < n, ∃ calls c, parse exDO (runAll exDO 9 (World.new 0) exDOps) 9 = .ok calls ∧
      scene exDO (exCG 5) flat exCLab (defaultOpts 1) (fun _ => 1) calls = .ok c ∧
      ∃ i, PDict.get? c.d.frameNodes (.sub 0) = some i ∧ DrawnAt (play anims k c.ids c.d.nodes) i (mkH 1 ![(k : ℝ), (k : ℝ), 0]) := by
  have hinit : ∃ l, Log.init (fun _ => "") ⟨true, true, true, flat⟩ exCW (n + 1) = .ok (l, exCnames) := by
    cases flat <;> exact ⟨_, rfl⟩
  obtain ⟨l, hinit⟩ := hinit
  have hsn : sceneNames (fun _ => "") flat exCW exCnames = .ok exCnames := by cases flat <;> rfl
  obtain ⟨l', anims, h1, h2, -, h4⟩ := C99_replay exD_allowed rfl exD_tree (lim' := 9) (by decide) (exC_watches 5) hsn (lab := exCLab) (fun _ _ => rfl)
    exC_names (defaultOpts 1) (fun _ => 1) (fun s _ => ⟨_, rfl⟩) (cfg := ⟨true, true, true, flat⟩) rfl rfl hinit (fun _ _ h => h)
    ((List.range n).map fun k : ℕ => exCV k) (by simp) (by
      intro v hv
      obtain ⟨k, -, rfl⟩ := List.mem_map.mp hv
      exact ⟨fun _ _ => rfl, fun _ _ => rfl, rfl, rfl, rfl, rfl, rfl⟩) (fun k => exCG k) (fun k => exCL k) (by
      intro k hk
      simp only [List.getElem_map, List.getElem_range]
      refine ⟨⟨?_, ?_, ?_⟩, exC_geo _, rfl, fun x hx => by cases hx⟩
      · intro f hf
        rcases exC_inWorld.mp hf with rfl | rfl | rfl <;> simp [exCV, exCencF, poseOf, bposeOf, exCG, Objs.bodyOf, exDO]
      · intro l hl; simp [exDF, Forest.links] at hl; subst hl; simp [exCV, exCG]
      · intro x _; rfl) (by intro l hl; simp [exDF, Forest.links] at hl; subst hl; simp)
    (rnd := id) (fun _ _ _ _ _ => ⟨rfl, rfl⟩) (ext := "pkl") (by simp)
  refine ⟨l, l', anims, hinit, h1, h2, fun k hk => ?_⟩
  obtain ⟨calls, c, e1, e2, e3⟩ := h4 k (by simpa using hk)
  obtain ⟨i, hi, hd⟩ := e3.frames (.sub 0) (exC_inWorld.mpr (.inr (.inr rfl)))
  refine ⟨calls, c, e1, e2, i, hi, ?_⟩
  have : poseOf exDO (exCG k) (.sub 0) = mkH 1 ![(k : ℝ), (k : ℝ), 0] := by
    simp [poseOf, bposeOf, exCG, Objs.bodyOf, exDO, exCP, exCB, mkH_mul]
  rw [← this]; exact hd

def exCO2 : Objs := ⟨fun _ => 1, fun _ => .body 0, fun _ => [], fun _ => 0⟩
noncomputable def exCLab2 : Labels := ⟨fun f => exCnames (exCencF f), fun _ => some "arm", fun _ => .box ![1, 1, 1]⟩

lemma exD2_tree : IsTree exCO2 (runAll exCO2 9 (World.new 0) exDOps) exDF := by
  have hw : (runAll exCO2 9 (World.new 0) exDOps).ground = 0 := rfl
  have hj : (runAll exCO2 9 (World.new 0) exDOps).joint 0 = ⟨some (.body 0), some (.body 1), none⟩ := rfl
  have hb0 : (runAll exCO2 9 (World.new 0) exDOps).body 0 = ⟨none, [0]⟩ := rfl
  have hb1 : (runAll exCO2 9 (World.new 0) exDOps).body 1 = ⟨some 0, []⟩ := rfl
  refine ⟨?_, by rw [hw, hb0], by rw [hw]; decide, by decide⟩
  rw [hw, hb0]
  refine Unfolds.cons (f0 := .body 0) (f1 := .body 1) (by rw [hj]) (by rw [hj]) rfl (by rw [show exCO2.bodyOf (.body 1) = 1 from rfl, hb1]) ?_ (.nil _)
  rw [show exCO2.bodyOf (.body 1) = 1 from rfl, hb1]
  exact .nil _

lemma exD2_allowed : AllowedHistory exCO2 9 (World.new 0) exDOps := by
  refine ⟨?_, trivial, trivial, trivial⟩
  intro f hf
  simp only [frame1s, List.mem_singleton, Arg.frame.injEq] at hf
  subst hf
  decide

lemma exD2_inWorld {f : FrameRef} : InWorld exCO2 (runAll exCO2 9 (World.new 0) exDOps) exDF f ↔ f = .body 0 ∨ f = .body 1 ∨ f = .sub 0 := by
  have h1 : (runAll exCO2 9 (World.new 0) exDOps).ground = 0 := rfl
  have h2 : (runAll exCO2 9 (World.new 0) exDOps).subframes = [0] := rfl
  rw [InWorld, h1, h2]
  cases f with
  | body b => simp [exDF, Forest.bodies, Objs.bodyOf]
  | sub x => simp [exDF, Forest.bodies, Objs.bodyOf, exCO2]

/-- C99 needs that no shape is called as a frame: a box of the ground, called "arm" as the body, takes the name, the
body's node is called "arm_0", and no animation of the log moves it. -/
theorem C99_shape_false : ∃ (o : Objs) (ops : List Op) (lab : Labels) (F : Forest (FrameRef × ℕ × FrameRef) ℕ) (w : World) (calls : List Graph.Ev) (c : CSt) (i : ℕ),
    AllowedHistory o 9 (World.new 0) ops ∧ w = runAll o 9 (World.new 0) ops ∧ IsTree o w F ∧
    (∀ f f', InWorld o w F f → InWorld o w F f' → lab.frame f = lab.frame f' → f = f') ∧ lab.frame (.body 1) = some "arm" ∧
    parse o w 9 = .ok calls ∧ scene o (exCG 5) true lab (defaultOpts 1) (fun _ => 1) calls = .ok c ∧
    PDict.get? c.d.frameNodes (.body 1) = some i ∧
    ∀ anims k, (∀ a ∈ anims, ∃ f, InWorld o w F f ∧ lab.frame f = some a.target) → (play anims k c.ids c.d.nodes)[i]? = c.d.nodes[i]? := by
  have hcalls := C59_calls (o := exCO2) (lim := 9) (g := 0) (ops := exDOps) rfl exD2_tree (lim' := 9) (by decide)
  refine ⟨exCO2, exDOps, exCLab2, exDF, _, _, _, 1, exD2_allowed, rfl, exD2_tree, ?_, rfl, hcalls, rfl, rfl, ?_⟩
  · intro f f' hf hf' h
    rcases exD2_inWorld.mp hf with rfl | rfl | rfl <;> rcases exD2_inWorld.mp hf' with rfl | rfl | rfl <;>
      first
        | rfl
        | (exfalso; simp [exCLab2, exCnames, exCencF] at h)
  · intro anims k ha
    have hnone : keyOf anims k "arm_0" = none := by
      simp only [keyOf, Option.map_eq_none_iff, List.find?_eq_none, decide_eq_true_eq]
      intro a ham he
      obtain ⟨f, hf, hl⟩ := ha a ham
      rw [he] at hl
      rcases exD2_inWorld.mp hf with rfl | rfl | rfl <;> simp [exCLab2, exCnames, exCencF] at hl
    change some (playNode anims k (some "arm_0") _) = _
    simp only [playNode, Option.bind_some, hnone]
    rfl

end Arboris
