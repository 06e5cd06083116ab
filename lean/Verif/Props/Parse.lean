import Verif.Model.Parse
import Verif.Props.Register
import Verif.Props.Replace

/-!
# C59: `World.parse`
-/

namespace Arboris
open Graph Spec

/-- the calls made for the shapes carried by a frame -/
def shapeCalls (o : Objs) (w : World) (f : FrameRef) : List Ev :=
  (w.shapes.filter fun s => o.shapeFrame s = f).map fun s => .reg (.shape s)

/-- the calls made for a body: the body, then each of its subframes with its shapes, then its own shapes -/
def bodyCalls (o : Objs) (w : World) (b : ℕ) : List Ev :=
  .reg (.frame (.body b)) ::
    (w.subframes.filter fun f => o.subBody f = b).flatMap (fun f => .reg (.frame (.sub f)) :: shapeCalls o w (.sub f)) ++
    shapeCalls o w (.body b)

/-- the calls made for a tree: for each link, depth first, the link, then the child body -/
def treeCalls (o : Objs) (w : World) : Forest (FrameRef × ℕ × FrameRef) ℕ → List Ev
  | .nil => []
  | .cons l b ch sib => .link l.1 l.2.1 l.2.2 :: bodyCalls o w b ++ treeCalls o w ch ++ treeCalls o w sib

lemma parseShapes_eq (o : Objs) (w : World) (st : PSt) (f : FrameRef) :
    parseShapes o w st f = { st with trace := st.trace ++ shapeCalls o w f } := by
  unfold parseShapes shapeCalls
  induction w.shapes generalizing st with
  | nil => simp
  | cons s l ih =>
    rw [List.foldl_cons, ih]
    by_cases h : o.shapeFrame s = f
    · simp [h, PSt.emit]
    · simp [h]

lemma parseSubs_eq (o : Objs) (w : World) (b : ℕ) (l : List ℕ) (hl : l.Nodup) (st : PSt)
    (hs : ∀ f ∈ l, o.subBody f = b → .sub f ∉ st.seen) :
    let st' := l.foldl (fun st f => if .sub f ∉ st.seen ∧ o.subBody f = b then parseSub o w st f else st) st
    st'.trace = st.trace ++ (l.filter fun f => o.subBody f = b).flatMap
      (fun f => .reg (.frame (.sub f)) :: shapeCalls o w (.sub f)) ∧
    ∀ x ∈ st'.seen, x ∈ st.seen ∨ o.bodyOf x = b := by
  induction l generalizing st with
  | nil => simp; exact fun x hx => Or.inl hx
  | cons f l ih =>
    obtain ⟨hf, hl⟩ := List.nodup_cons.mp hl
    simp only [List.foldl_cons]
    by_cases hb : o.subBody f = b
    · have hns := hs f List.mem_cons_self hb
      rw [if_pos ⟨hns, hb⟩]
      have hp : parseSub o w st f = ⟨.sub f :: st.seen,
          st.trace ++ .reg (.frame (.sub f)) :: shapeCalls o w (.sub f)⟩ := by
        unfold parseSub
        rw [if_neg hns, parseShapes_eq]
        simp [PSt.emit]
      rw [hp]
      obtain ⟨h1, h2⟩ := ih hl ⟨.sub f :: st.seen, st.trace ++ .reg (.frame (.sub f)) :: shapeCalls o w (.sub f)⟩ (by
        intro g hg hgb hm
        rcases List.mem_cons.mp hm with hm | hm
        · simp at hm; subst hm; exact hf hg
        · exact hs g (List.mem_cons_of_mem _ hg) hgb hm)
      refine ⟨?_, ?_⟩
      · rw [h1]; simp [hb]
      · intro x hx
        rcases h2 x hx with h | h
        · rcases List.mem_cons.mp h with rfl | h
          · right; exact hb
          · exact Or.inl h
        · exact Or.inr h
    · rw [if_neg (by tauto)]
      obtain ⟨h1, h2⟩ := ih hl st (fun g hg => hs g (List.mem_cons_of_mem _ hg))
      exact ⟨by rw [h1]; simp [hb], h2⟩

/-- everything seen so far belongs to the bodies `B` -/
def SeenIn (o : Objs) (B : List ℕ) (st : PSt) : Prop := ∀ x ∈ st.seen, o.bodyOf x ∈ B

lemma parseBody_eq {o : Objs} {w : World} (hn : w.subframes.Nodup) {B : List ℕ} {st : PSt} (hs : SeenIn o B st) {b : ℕ}
    (hb : b ∉ B) : (parseBody o w st b).trace = st.trace ++ bodyCalls o w b ∧ SeenIn o (b :: B) (parseBody o w st b) := by
  have h1 : .body b ∉ st.seen := fun h => hb (hs _ h)
  unfold parseBody
  rw [if_neg h1]
  simp only [parseShapes_eq]
  obtain ⟨t, s⟩ := parseSubs_eq o w b w.subframes hn
    (PSt.emit { st with seen := .body b :: st.seen } (.reg (.frame (.body b)))) (by
      intro f hf hfb hm
      rcases List.mem_cons.mp hm with hm | hm
      · simp at hm
      · exact hb (hfb ▸ hs _ hm))
  refine ⟨?_, ?_⟩
  · rw [t]; simp [PSt.emit, bodyCalls]
  · intro x hx
    rcases s x hx with h | h
    · rcases List.mem_cons.mp h with rfl | h
      · exact List.mem_cons_self
      · exact List.mem_cons_of_mem _ (hs _ h)
    · rw [h]; exact List.mem_cons_self

lemma SeenIn.mono {o : Objs} {B B' : List ℕ} {st : PSt} (h : SeenIn o B st) (hB : ∀ x ∈ B, x ∈ B') : SeenIn o B' st :=
  fun x hx => hB _ (h x hx)

lemma parseJoints_eq {o : Objs} {w : World} (hn : w.subframes.Nodup) {b js F} (h : Unfolds o w b js F) (k : ℕ)
    (hk : depth F ≤ k) (B : List ℕ) (st : PSt) (hs : SeenIn o B st) (hnd : F.bodies.Nodup)
    (hdis : ∀ c ∈ F.bodies, c ∉ B) :
    ∃ st', parseJoints o w k st js = .ok st' ∧ st'.trace = st.trace ++ treeCalls o w F ∧ SeenIn o (B ++ F.bodies) st' := by
  induction h generalizing k B st with
  | nil => exact ⟨st, by rw [parseJoints], by simp [treeCalls], by simpa [Forest.bodies] using hs⟩
  | @cons b j js f0 f1 ch sib h0 h1 hb hpar hch hsib ihc ihs =>
    simp only [depth] at hk
    obtain ⟨k', rfl⟩ : ∃ k', k = k' + 1 := ⟨k - 1, by omega⟩
    simp only [Forest.bodies, List.cons_append] at hnd hdis
    obtain ⟨n1, n2⟩ := List.nodup_cons.mp hnd
    obtain ⟨n3, n4, n5⟩ := List.nodup_append.mp n2
    obtain ⟨t1, s1⟩ := parseBody_eq (st := st.emit (.link f0 j f1)) hn (fun x hx => hs x hx)
      (hdis (o.bodyOf f1) List.mem_cons_self)
    obtain ⟨st2, e2, t2, s2⟩ := ihc k' (by omega) (o.bodyOf f1 :: B) _ s1 n3 (by
      intro c hc hm
      rcases List.mem_cons.mp hm with rfl | hm
      · exact n1 (List.mem_append_left _ hc)
      · exact hdis c (List.mem_cons_of_mem _ (List.mem_append_left _ hc)) hm)
    obtain ⟨st3, e3, t3, s3⟩ := ihs (k' + 1) (by omega) _ _ s2 n4 (by
      intro c hc hm
      rcases List.mem_append.mp hm with hm | hm
      · rcases List.mem_cons.mp hm with rfl | hm
        · exact n1 (List.mem_append_right _ hc)
        · exact hdis c (List.mem_cons_of_mem _ (List.mem_append_right _ hc)) hm
      · exact n5 _ hm _ hc rfl)
    refine ⟨st3, ?_, ?_, ?_⟩
    · rw [parseJoints]
      simp only [h0, h1, e2, bind, Except.bind]
      exact e3
    · rw [t3, t2, t1]; simp [PSt.emit, treeCalls]
    · refine s3.mono ?_
      intro x hx
      simp only [List.mem_append, List.mem_cons, Forest.bodies, List.cons_append] at hx ⊢
      tauto

/-- C59.  On a world obtained through the API, `parse` announces the ground, then walks the tree: each body followed
by its subframes and shapes, each link before the body it leads to; then the constraints and the controllers. -/
theorem C59_calls {o : Objs} {lim g : ℕ} {ops : List Op} {w : World} (hw : w = runAll o lim (World.new g) ops)
    {F : Forest (FrameRef × ℕ × FrameRef) ℕ} (hF : IsTree o w F) {lim' : ℕ} (hl : depth F ≤ lim') :
    parse o w lim' = .ok (.initParse w.ground :: bodyCalls o w w.ground ++ treeCalls o w F ++
      w.constraints.map (fun c => .reg (.con c)) ++ w.controllers.map (fun c => .reg (.ctrl c))) := by
  have hR : RInv o w := hw ▸ RInv.runAll (RInv.new o g) ops
  obtain ⟨n1, n2⟩ := List.nodup_cons.mp hF.bodies_nodup
  unfold parse
  obtain ⟨t1, s1⟩ := parseBody_eq (o := o) (w := w) (B := []) (st := ⟨[], [.initParse w.ground]⟩) (b := w.ground)
    hR.subframes (fun x hx => by simp at hx) (by simp)
  obtain ⟨st2, e2, t2, s2⟩ := parseJoints_eq hR.subframes hF.unfolds lim' hl [w.ground] _ s1 n2 (by
    intro c hc hm; simp at hm; subst hm; exact n1 hc)
  simp only [e2, bind, Except.bind, t2, t1]
  simp [pure, Except.pure]

lemma mem_shapeCalls {o : Objs} {w : World} {f : FrameRef} {e : Ev} :
    e ∈ shapeCalls o w f ↔ ∃ s ∈ w.shapes, o.shapeFrame s = f ∧ e = .reg (.shape s) := by
  simp only [shapeCalls, List.mem_map, List.mem_filter, decide_eq_true_eq]
  constructor
  · rintro ⟨s, ⟨a, b⟩, rfl⟩; exact ⟨s, a, b, rfl⟩
  · rintro ⟨s, a, b, rfl⟩; exact ⟨s, ⟨a, b⟩, rfl⟩

lemma mem_bodyCalls {o : Objs} {w : World} (hk : ∀ s ∈ w.shapes, Known w (o.shapeFrame s)) {b : ℕ} {e : Ev} :
    e ∈ bodyCalls o w b ↔ (e = .reg (.frame (.body b))) ∨ (∃ f ∈ w.subframes, o.subBody f = b ∧ e = .reg (.frame (.sub f))) ∨
      (∃ s ∈ w.shapes, o.bodyOf (o.shapeFrame s) = b ∧ e = .reg (.shape s)) := by
  simp only [bodyCalls, List.cons_append, List.mem_cons, List.mem_append, List.mem_flatMap, List.mem_filter,
    decide_eq_true_eq, mem_shapeCalls]
  constructor
  · rintro (h | ⟨f, ⟨a, b'⟩, rfl | ⟨s, c, d, rfl⟩⟩ | ⟨s, c, d, rfl⟩)
    · exact Or.inl h
    · exact Or.inr (Or.inl ⟨f, a, b', rfl⟩)
    · exact Or.inr (Or.inr ⟨s, c, by rw [d]; exact b', rfl⟩)
    · exact Or.inr (Or.inr ⟨s, c, by rw [d]; rfl, rfl⟩)
  · rintro (h | ⟨f, a, b', rfl⟩ | ⟨s, c, d, rfl⟩)
    · exact Or.inl h
    · exact Or.inr (Or.inl ⟨f, ⟨a, b'⟩, Or.inl rfl⟩)
    · rcases hsf : o.shapeFrame s with b0 | f
      · rw [hsf] at d
        exact Or.inr (Or.inr ⟨s, c, by rw [hsf]; exact congrArg _ d, rfl⟩)
      · have := hk s c
        rw [hsf] at this d
        exact Or.inr (Or.inl ⟨f, ⟨this, d⟩, Or.inr ⟨s, c, hsf, rfl⟩⟩)

lemma mem_treeCalls {o : Objs} {w : World} {F : Forest (FrameRef × ℕ × FrameRef) ℕ} {e : Ev} :
    e ∈ treeCalls o w F ↔ (∃ l ∈ F.links, e = .link l.1 l.2.1 l.2.2) ∨ (∃ b ∈ F.bodies, e ∈ bodyCalls o w b) := by
  induction F with
  | nil => simp [treeCalls, Forest.links, Forest.bodies]
  | cons l b ch sib ih1 ih2 =>
    simp only [treeCalls, Forest.links, Forest.bodies, List.cons_append, List.mem_cons, List.mem_append, ih1, ih2,
      List.append_assoc, or_and_right, exists_or, exists_eq_left]
    exact Iff.of_eq (by ac_rfl)

lemma bodyCalls_nodup {o : Objs} {w : World} (h1 : w.subframes.Nodup) (h2 : w.shapes.Nodup) (b : ℕ) :
    (bodyCalls o w b).Nodup := by
  have hs : ∀ f, (shapeCalls o w f).Nodup := fun f => (h2.filter _).map fun a b h => by simpa using h
  unfold bodyCalls
  rw [List.cons_append, List.nodup_cons]
  constructor
  · simp [mem_shapeCalls]
  · rw [List.nodup_append]
    refine ⟨?_, hs _, ?_⟩
    · rw [List.nodup_flatMap]
      refine ⟨fun f _ => List.nodup_cons.mpr ⟨by simp [mem_shapeCalls], hs _⟩, ?_⟩
      refine (h1.filter _).imp ?_
      intro f g hfg
      rw [Function.onFun, List.disjoint_left]
      intro e he he'
      simp only [List.mem_cons, mem_shapeCalls] at he he'
      rcases he with rfl | ⟨s, _, a, rfl⟩ <;> rcases he' with he' | ⟨s', _, a', he'⟩
      · simp at he'; exact hfg he'
      · simp at he'
      · simp at he'
      · simp at he'; subst he'; rw [a] at a'; simp at a'; exact hfg a'
    · intro e he e' he' hee
      subst hee
      simp only [List.mem_flatMap, List.mem_cons, mem_shapeCalls] at he he'
      obtain ⟨f, _, h⟩ := he
      obtain ⟨s', _, a', rfl⟩ := he'
      rcases h with h | ⟨s, _, a, h⟩
      · simp at h
      · simp at h; subst h; rw [a] at a'; simp at a'

/-- the body a call is about -/
lemma bodyCalls_disjoint {o : Objs} {w : World} (hk : ∀ s ∈ w.shapes, Known w (o.shapeFrame s)) {b c : ℕ} {e : Ev}
    (h1 : e ∈ bodyCalls o w b) (h2 : e ∈ bodyCalls o w c) : b = c := by
  rw [mem_bodyCalls hk] at h1 h2
  rcases h1 with rfl | ⟨f, _, a, rfl⟩ | ⟨s, _, a, rfl⟩ <;> rcases h2 with h2 | ⟨f', _, a', h2⟩ | ⟨s', _, a', h2⟩ <;>
    simp at h2
  · exact h2
  · subst h2; exact a.symm.trans a'
  · subst h2; exact a.symm.trans a'

lemma link_notMem_bodyCalls {o : Objs} {w : World} (hk : ∀ s ∈ w.shapes, Known w (o.shapeFrame s)) {b f0 j f1} :
    Ev.link f0 j f1 ∉ bodyCalls o w b := by
  rw [mem_bodyCalls hk]; simp

lemma treeCalls_nodup {o : Objs} {w : World} (h1 : w.subframes.Nodup) (h2 : w.shapes.Nodup)
    (hk : ∀ s ∈ w.shapes, Known w (o.shapeFrame s)) {F : Forest (FrameRef × ℕ × FrameRef) ℕ} (hb : F.bodies.Nodup)
    (hj : (joints F).Nodup) : (treeCalls o w F).Nodup := by
  induction F with
  | nil => simp [treeCalls]
  | cons l b ch sib ih1 ih2 =>
    simp only [Forest.bodies, List.cons_append] at hb
    simp only [joints, Forest.links, List.map_cons, List.map_append, List.cons_append] at hj
    obtain ⟨b1, b2⟩ := List.nodup_cons.mp hb
    obtain ⟨b3, b4, b5⟩ := List.nodup_append.mp b2
    obtain ⟨j1, j2⟩ := List.nodup_cons.mp hj
    obtain ⟨j3, j4, j5⟩ := List.nodup_append.mp j2
    have e1 := ih1 b3 j3
    have e2 := ih2 b4 j4
    have jn : ∀ G : Forest (FrameRef × ℕ × FrameRef) ℕ, (l.2.1 ∉ G.links.map fun l => l.2.1) →
        Ev.link l.1 l.2.1 l.2.2 ∉ treeCalls o w G := by
      intro G hG hm
      rw [mem_treeCalls] at hm
      rcases hm with ⟨l', hl', he⟩ | ⟨c, _, hc⟩
      · simp only [Ev.link.injEq] at he
        exact hG (List.mem_map.mpr ⟨l', hl', he.2.1.symm⟩)
      · exact link_notMem_bodyCalls hk hc
    have bn : ∀ G : Forest (FrameRef × ℕ × FrameRef) ℕ, b ∉ G.bodies → ∀ e ∈ bodyCalls o w b, e ∉ treeCalls o w G := by
      intro G hG e he hm
      rw [mem_treeCalls] at hm
      rcases hm with ⟨l', hl', rfl⟩ | ⟨c, hc', hc⟩
      · exact link_notMem_bodyCalls hk he
      · exact hG (bodyCalls_disjoint hk he hc ▸ hc')
    simp only [List.mem_append, not_or] at b1 j1
    simp only [treeCalls, List.cons_append, List.append_assoc]
    rw [List.nodup_cons]
    refine ⟨?_, List.nodup_append.mpr ⟨bodyCalls_nodup h1 h2 b, List.nodup_append.mpr ⟨e1, e2, ?_⟩, ?_⟩⟩
    · simp only [List.mem_append, not_or]
      exact ⟨link_notMem_bodyCalls hk, jn ch j1.1, jn sib j1.2⟩
    · rintro e he e' he' rfl
      rw [mem_treeCalls] at he he'
      rcases he with ⟨l1, hl1, rfl⟩ | ⟨c, hc', hc⟩ <;> rcases he' with ⟨l2, hl2, he2⟩ | ⟨c', hc2', hc2⟩
      · simp only [Ev.link.injEq] at he2
        exact j5 _ (List.mem_map.mpr ⟨l1, hl1, rfl⟩) _ (List.mem_map.mpr ⟨l2, hl2, rfl⟩) he2.2.1
      · exact link_notMem_bodyCalls hk hc2
      · rw [he2] at hc; exact link_notMem_bodyCalls hk hc
      · exact b5 c hc' c' hc2' (bodyCalls_disjoint hk hc hc2)
    · rintro e he e' he' rfl
      rcases List.mem_append.mp he' with h | h
      · exact bn ch b1.1 e he h
      · exact bn sib b1.2 e he h

/-- C59.  No call is made twice. -/
theorem C59_once {o : Objs} {lim g : ℕ} {ops : List Op} {w : World} (hw : w = runAll o lim (World.new g) ops)
    {F : Forest (FrameRef × ℕ × FrameRef) ℕ} (hF : IsTree o w F) {lim' : ℕ} (hl : depth F ≤ lim') {calls : List Ev}
    (hc : parse o w lim' = .ok calls) : calls.Nodup := by
  have hR : RInv o w := hw ▸ RInv.runAll (RInv.new o g) ops
  rw [C59_calls hw hF hl] at hc
  simp only [Except.ok.injEq] at hc
  subst hc
  obtain ⟨n1, n2⟩ := List.nodup_cons.mp hF.bodies_nodup
  have hk := hR.shape_known
  simp only [List.cons_append, List.append_assoc]
  rw [List.nodup_cons]
  have nk : ∀ c, Ev.initParse w.ground ∉ bodyCalls o w c := fun c => by rw [mem_bodyCalls hk]; simp
  have ck : ∀ c x, Ev.reg (.con x) ∉ bodyCalls o w c := fun c x => by rw [mem_bodyCalls hk]; simp
  have tk : ∀ c x, Ev.reg (.ctrl x) ∉ bodyCalls o w c := fun c x => by rw [mem_bodyCalls hk]; simp
  constructor
  · simp only [List.mem_append, List.mem_map, not_or]
    refine ⟨nk _, ?_, by simp, by simp⟩
    rw [mem_treeCalls]
    rintro (⟨l, _, h⟩ | ⟨c, _, h⟩)
    · simp at h
    · exact nk _ h
  · rw [List.nodup_append]
    refine ⟨bodyCalls_nodup hR.subframes hR.shapes _, ?_, ?_⟩
    · rw [List.nodup_append]
      refine ⟨treeCalls_nodup hR.subframes hR.shapes hk n2 hF.joints_nodup, ?_, ?_⟩
      · rw [List.nodup_append]
        refine ⟨hR.constraints.map fun a b h => by simpa using h, hR.controllers.map fun a b h => by simpa using h, ?_⟩
        rintro e he e' he' rfl
        simp only [List.mem_map] at he he'
        obtain ⟨a, _, rfl⟩ := he
        obtain ⟨b, _, h⟩ := he'
        simp at h
      · rintro e he e' he' rfl
        simp only [List.mem_append, List.mem_map] at he'
        rw [mem_treeCalls] at he
        rcases he' with ⟨a, _, rfl⟩ | ⟨a, _, rfl⟩ <;> rcases he with ⟨l, _, h⟩ | ⟨c, _, h⟩
        · simp at h
        · exact ck _ _ h
        · simp at h
        · exact tk _ _ h
    · rintro e he e' he' rfl
      simp only [List.mem_append, List.mem_map] at he'
      rcases he' with he' | ⟨a, _, rfl⟩ | ⟨a, _, rfl⟩
      · rw [mem_treeCalls] at he'
        rcases he' with ⟨l, _, rfl⟩ | ⟨c, hc', h⟩
        · exact link_notMem_bodyCalls hk he
        · exact n1 (bodyCalls_disjoint hk he h ▸ hc')
      · exact ck _ _ he
      · exact tk _ _ he

/-- C59.  Exactly the elements of the world are announced: its bodies, its joints, the registered subframes and shapes
carried by its bodies, and every constraint and controller. -/
theorem C59_complete {o : Objs} {lim g : ℕ} {ops : List Op} {w : World} (hw : w = runAll o lim (World.new g) ops)
    {F : Forest (FrameRef × ℕ × FrameRef) ℕ} (hF : IsTree o w F) {lim' : ℕ} (hl : depth F ≤ lim') {calls : List Ev}
    (hc : parse o w lim' = .ok calls) :
    (∀ b, .reg (.frame (.body b)) ∈ calls ↔ b ∈ w.ground :: F.bodies) ∧
    (∀ f, .reg (.frame (.sub f)) ∈ calls ↔ f ∈ w.subframes ∧ o.subBody f ∈ w.ground :: F.bodies) ∧
    (∀ s, .reg (.shape s) ∈ calls ↔ s ∈ w.shapes ∧ o.bodyOf (o.shapeFrame s) ∈ w.ground :: F.bodies) ∧
    (∀ f0 j f1, .link f0 j f1 ∈ calls ↔ (f0, j, f1) ∈ F.links) ∧
    (∀ c, .reg (.con c) ∈ calls ↔ c ∈ w.constraints) ∧
    (∀ c, .reg (.ctrl c) ∈ calls ↔ c ∈ w.controllers) := by
  have hR : RInv o w := hw ▸ RInv.runAll (RInv.new o g) ops
  have hk := hR.shape_known
  rw [C59_calls hw hF hl] at hc
  simp only [Except.ok.injEq] at hc
  subst hc
  have hm : ∀ e, e ∈ (Ev.initParse w.ground :: bodyCalls o w w.ground ++ treeCalls o w F ++
      w.constraints.map (fun c => .reg (.con c)) ++ w.controllers.map (fun c => .reg (.ctrl c))) ↔
      e = .initParse w.ground ∨ (∃ l ∈ F.links, e = .link l.1 l.2.1 l.2.2) ∨
      (∃ b ∈ w.ground :: F.bodies, e ∈ bodyCalls o w b) ∨ (∃ c ∈ w.constraints, e = .reg (.con c)) ∨
      (∃ c ∈ w.controllers, e = .reg (.ctrl c)) := by
    intro e
    simp only [List.cons_append, List.mem_cons, List.mem_append, mem_treeCalls, List.mem_map, or_and_right,
      exists_or, exists_eq_left, eq_comm (b := e)]
    exact Iff.of_eq (by ac_rfl)
  refine ⟨?_, ?_, ?_, ?_, ?_, ?_⟩
  · intro b
    rw [hm]
    simp only [mem_bodyCalls hk]
    simp
  · intro b
    rw [hm]
    simp only [mem_bodyCalls hk]
    simp only [reduceCtorEq, false_or, and_false, exists_false, or_false, Ev.reg.injEq, Obj.frame.injEq,
      FrameRef.sub.injEq]
    constructor
    · rintro ⟨c, hc, f, hf, hfc, rfl⟩
      exact ⟨hf, hfc ▸ hc⟩
    · rintro ⟨h1, h2⟩
      exact ⟨_, h2, b, h1, rfl, rfl⟩
  · intro s
    rw [hm]
    simp only [mem_bodyCalls hk]
    simp only [reduceCtorEq, false_or, and_false, exists_false, or_false, Ev.reg.injEq, Obj.shape.injEq]
    constructor
    · rintro ⟨c, hc, f, hf, hfc, rfl⟩
      exact ⟨hf, hfc ▸ hc⟩
    · rintro ⟨h1, h2⟩
      exact ⟨_, h2, s, h1, rfl, rfl⟩
  · intro f0 j f1
    rw [hm]
    simp only [mem_bodyCalls hk]
    simp only [reduceCtorEq, false_or, and_false, exists_false, or_false, Ev.link.injEq]
    constructor
    · rintro ⟨l, hl, h1, h2, h3⟩
      obtain ⟨a, b, c⟩ := l
      simp only at h1 h2 h3
      subst h1 h2 h3
      exact hl
    · exact fun h => ⟨_, h, rfl, rfl, rfl⟩
  · intro c
    rw [hm]
    simp only [mem_bodyCalls hk]
    simp
  · intro c
    rw [hm]
    simp only [mem_bodyCalls hk]
    simp

/-- what must have been announced before a call: the frame a link starts from, the frame carrying a shape -/
def req (o : Objs) : Ev → List Ev
  | .link f0 _ _ => [.reg (.frame f0)]
  | .reg (.shape s) => [.reg (.frame (o.shapeFrame s))]
  | _ => []

/-- each call of `l` finds what it requires in `A` or earlier in `l` -/
def Ord (o : Objs) (A : List Ev) : List Ev → Prop
  | [] => True
  | e :: l => (∀ r ∈ req o e, r ∈ A) ∧ Ord o (e :: A) l

lemma Ord.mono {o : Objs} {A A' l : List Ev} (h : Ord o A l) (hA : ∀ x ∈ A, x ∈ A') : Ord o A' l := by
  induction l generalizing A A' with
  | nil => trivial
  | cons e l ih =>
    refine ⟨fun r hr => hA _ (h.1 r hr), ih h.2 ?_⟩
    intro x hx
    rcases List.mem_cons.mp hx with rfl | hx
    · exact List.mem_cons_self
    · exact List.mem_cons_of_mem _ (hA x hx)

lemma Ord.append {o : Objs} {A l1 l2 : List Ev} (h1 : Ord o A l1) (h2 : Ord o (l1 ++ A) l2) : Ord o A (l1 ++ l2) := by
  induction l1 generalizing A with
  | nil => exact h2
  | cons e l ih =>
    refine ⟨h1.1, ih h1.2 (h2.mono ?_)⟩
    intro x hx
    simp only [List.cons_append, List.mem_cons, List.mem_append] at hx ⊢
    tauto

lemma Ord.split {o : Objs} {A l pre post : List Ev} {e : Ev} (h : Ord o A l) (hl : l = pre ++ e :: post) :
    ∀ r ∈ req o e, r ∈ A ∨ r ∈ pre := by
  induction pre generalizing A l with
  | nil => subst hl; exact fun r hr => Or.inl (h.1 r hr)
  | cons x pre ih =>
    subst hl
    intro r hr
    rcases ih h.2 rfl r hr with h' | h'
    · rcases List.mem_cons.mp h' with rfl | h'
      · exact Or.inr List.mem_cons_self
      · exact Or.inl h'
    · exact Or.inr (List.mem_cons_of_mem _ h')

lemma shapeCalls_ord {o : Objs} {w : World} {f : FrameRef} {A : List Ev} (h : .reg (.frame f) ∈ A) :
    Ord o A (shapeCalls o w f) := by
  unfold shapeCalls
  have : ∀ s ∈ w.shapes.filter (fun s => o.shapeFrame s = f), o.shapeFrame s = f := by
    intro s hs; simpa using (List.mem_filter.mp hs).2
  revert this
  generalize w.shapes.filter (fun s => o.shapeFrame s = f) = l
  intro this
  induction l generalizing A with
  | nil => trivial
  | cons s l ih =>
    refine ⟨?_, ih (List.mem_cons_of_mem _ h) fun s' hs' => this s' (List.mem_cons_of_mem _ hs')⟩
    intro r hr
    simp only [req, this s List.mem_cons_self, List.mem_singleton] at hr
    subst hr; exact h

lemma bodyCalls_ord {o : Objs} {w : World} {b : ℕ} {A : List Ev} : Ord o A (bodyCalls o w b) := by
  unfold bodyCalls
  refine Ord.append ⟨by simp [req], ?_⟩ (shapeCalls_ord ?_)
  · generalize w.subframes.filter (fun f => o.subBody f = b) = l
    generalize Ev.reg (Obj.frame (.body b)) :: A = A'
    induction l generalizing A' with
    | nil => trivial
    | cons f l ih =>
      rw [List.flatMap_cons]
      refine Ord.append ⟨by simp [req], shapeCalls_ord List.mem_cons_self⟩ (ih _)
  · simp

lemma treeCalls_ord {o : Objs} {w : World} (hI : GInv o w) {b js F} (h : Unfolds o w b js F)
    (hk : ∀ s ∈ w.shapes, Known w (o.shapeFrame s))
    (hsub : ∀ j ∈ js, j ∈ (w.body b).children) {A : List Ev} (hA : ∀ e ∈ bodyCalls o w b, e ∈ A) :
    Ord o A (treeCalls o w F) := by
  induction h generalizing A with
  | nil => trivial
  | @cons b j js f0 f1 ch sib h0 h1 hb hpar hch hsib ihc ihs =>
    simp only [treeCalls]
    refine Ord.append (Ord.append ⟨?_, bodyCalls_ord⟩ (ihc (fun _ h => h) ?_))
      (ihs (fun k hk' => hsub k (List.mem_cons_of_mem _ hk')) ?_)
    · intro r hr
      simp only [req, List.mem_singleton] at hr
      subst hr
      refine hA _ ((mem_bodyCalls hk).mpr ?_)
      have hkn := hI.known b j (hsub j List.mem_cons_self) f0 (Or.inl h0)
      cases f0 with
      | body c => exact Or.inl (by rw [← hb]; rfl)
      | sub f => exact Or.inr (Or.inl ⟨f, hkn, hb, rfl⟩)
    · intro e he
      simp only [List.cons_append, List.mem_cons, List.mem_append]
      tauto
    · intro e he
      have := hA e he
      simp only [List.cons_append, List.mem_cons, List.mem_append]
      tauto

/-- C59.  The frame a link starts from, and the frame carrying a shape, are announced before the link or the shape. -/
theorem C59_order {o : Objs} {lim g : ℕ} {ops : List Op} (hh : AllowedHistory o lim (World.new g) ops) {w : World}
    (hw : w = runAll o lim (World.new g) ops) {F : Forest (FrameRef × ℕ × FrameRef) ℕ} (hF : IsTree o w F) {lim' : ℕ}
    (hl : depth F ≤ lim') {pre post : List Ev} :
    (∀ f0 j f1, parse o w lim' = .ok (pre ++ .link f0 j f1 :: post) → .reg (.frame f0) ∈ pre) ∧
    (∀ s, parse o w lim' = .ok (pre ++ .reg (.shape s) :: post) → .reg (.frame (o.shapeFrame s)) ∈ pre) := by
  have hR : RInv o w := hw ▸ RInv.runAll (RInv.new o g) ops
  have hI : GInv o w := hw ▸ GInv.runAll (GInv.new o g) hh
  have hord : Ord o [] (.initParse w.ground :: bodyCalls o w w.ground ++ treeCalls o w F ++
      w.constraints.map (fun c => .reg (.con c)) ++ w.controllers.map (fun c => .reg (.ctrl c))) := by
    have triv : ∀ (l : List Ev), (∀ e ∈ l, req o e = []) → ∀ A, Ord o A l := by
      intro l
      induction l with
      | nil => exact fun _ _ => trivial
      | cons e l ih =>
        exact fun h A => ⟨by simp [h e List.mem_cons_self], ih (fun e he => h e (List.mem_cons_of_mem _ he)) _⟩
    refine Ord.append (Ord.append (Ord.append ⟨by simp [req], bodyCalls_ord⟩
      (treeCalls_ord hI hF.unfolds hR.shape_known (fun _ h => h) ?_)) (triv _ ?_ _)) (triv _ ?_ _)
    · intro e he
      simp only [List.mem_cons, List.mem_append, List.cons_append]
      tauto
    · intro e he
      obtain ⟨c, _, rfl⟩ := List.mem_map.mp he
      rfl
    · intro e he
      obtain ⟨c, _, rfl⟩ := List.mem_map.mp he
      rfl
  rw [C59_calls hw hF hl]
  constructor
  · intro f0 j f1 h
    simp only [Except.ok.injEq] at h
    have := hord.split h (.reg (.frame f0)) (by simp [req])
    simpa using this
  · intro s h
    simp only [Except.ok.injEq] at h
    have := hord.split h (.reg (.frame (o.shapeFrame s))) (by simp [req])
    simpa using this

/-- a world with two bodies, a subframe of body 1 carrying shape 0, a contact constraint and a controller: the
hypotheses of C59 are met, and these are the calls -/
def demoObjs : Objs := ⟨fun _ => 1, fun _ => .sub 0, fun _ => [.sub 1], fun _ => 1⟩

example : parse demoObjs (runAll demoObjs 9 (World.new 0) [.addLink [.frame (.body 0), .joint 0, .frame (.sub 0)],
    .addLink [.frame (.sub 0), .joint 1, .frame (.body 2)], .register (.shape 0), .register (.con 0),
    .register (.ctrl 0), .register (.shape 0)]) 9 = .ok [.initParse 0, .reg (.frame (.body 0)),
    .link (.body 0) 0 (.sub 0), .reg (.frame (.body 1)), .reg (.frame (.sub 0)), .reg (.shape 0),
    .reg (.frame (.sub 1)), .link (.sub 0) 1 (.body 2), .reg (.frame (.body 2)), .reg (.con 0), .reg (.ctrl 0)] := by
  simp [runAll, Op.run, addLink, addLink1, register, parse, parseJoints, parseBody, parseSub, parseShapes, World.new,
    setFrames, setParent, setChildren, registerFrame, addNew, demoObjs, Objs.bodyOf, PSt.emit, Function.update,
    bind, Except.bind, pure, Except.pure]

end Arboris
