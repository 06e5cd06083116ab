import Verif.Spec.Drawer
import Verif.Props.Color
import Verif.Props.Parse
import Verif.Props.Tree

/-!
# C76: the drawer's transforms compose to the poses of the frames
-/

namespace Arboris
open Log Visu Graph Spec

/-- C76: a node has one place at most -/
theorem C76_unique {nodes : List Node} {i : ℕ} {H H' : Mat4} (h : DrawnAt nodes i H) (h' : DrawnAt nodes i H') : H = H' := by
  induction h generalizing H' with
  | root e =>
    cases h' with
    | root e' => rw [e] at e'; simp at e'; exact e'
    | child e' _ => rw [e] at e'; simp at e'
  | child e hp ih =>
    cases h' with
    | root e' => rw [e] at e'; simp at e'
    | child e' hp' =>
      rw [e] at e'; simp only [Option.some.injEq, Node.mk.injEq] at e'
      obtain ⟨rfl, rfl⟩ := e'
      rw [ih hp']

lemma Spec.DrawnAt.append {nodes l : List Node} {i : ℕ} {H : Mat4} (h : DrawnAt nodes i H) : DrawnAt (nodes ++ l) i H := by
  have ext : ∀ {i : ℕ} {x : Node}, nodes[i]? = some x → (nodes ++ l)[i]? = some x := by
    intro i x hx
    rw [List.getElem?_append_left, hx]
    exact (List.getElem?_eq_some_iff.mp hx).1
  induction h with
  | root e => exact .root (ext e)
  | child e _ ih => exact .child (ext e) ih

/-- where a frame is drawn -/
def drawnPose (o : Objs) (g : Geo) (flat : Bool) : FrameRef → Mat4
  | .body b => g.bodyPose b
  | .sub f => if flat && g.moving f then g.bpose f else g.bodyPose (o.subBody f) * g.bpose f

lemma drawnPose_eq {o : Objs} {g : Geo} {flat : Bool} {f : FrameRef} (h : ∀ x, f = .sub x → ¬ (flat = true ∧ g.moving x = true)) :
    drawnPose o g flat f = poseOf o g f := by
  cases f with
  | body b => simp [drawnPose, poseOf, bposeOf, Objs.bodyOf]
  | sub x =>
    have := h x rfl
    rw [drawnPose, if_neg (by simpa using this)]; rfl

/-- state of the drawer: the ground's node is there, the frames `A` have nodes, and every node in the table is well placed -/
structure DGood (o : Objs) (g : Geo) (flat : Bool) (A : List FrameRef) (d : DSt) : Prop where
  ground : d.nodes[0]? = some ⟨none, 1⟩
  has : ∀ f ∈ A, (PDict.get? d.frameNodes f).isSome
  placed : ∀ f i, PDict.get? d.frameNodes f = some i → DrawnAt d.nodes i (drawnPose o g flat f)

lemma DGood.node {o : Objs} {g : Geo} {flat : Bool} {A : List FrameRef} {d : DSt} (h : DGood o g flat A d) {f : FrameRef} (hf : f ∈ A) :
    ∃ i, d.node f = .ok i ∧ DrawnAt d.nodes i (drawnPose o g flat f) := by
  obtain ⟨i, hi⟩ := Option.isSome_iff_exists.mp (h.has f hf)
  exact ⟨i, by simp [DSt.node, hi], h.placed f i hi⟩

/-- a frame is bound to a well-placed node -/
lemma DGood.extend {o : Objs} {g : Geo} {flat : Bool} {A : List FrameRef} {d d' : DSt} (h : DGood o g flat A d) {l : List Node}
    (hn : d'.nodes = d.nodes ++ l) {f : FrameRef} {i : ℕ} (hf : d'.frameNodes = PDict.set d.frameNodes f i)
    (hi : DrawnAt (d.nodes ++ l) i (drawnPose o g flat f)) : DGood o g flat (f :: A) d' := by
  refine ⟨?_, ?_, ?_⟩
  · rw [hn, List.getElem?_append_left, h.ground]
    exact (List.getElem?_eq_some_iff.mp h.ground).1
  · intro f' hf'
    rw [hf, pget_set]
    by_cases he : f' = f
    · simp [he]
    · rw [if_neg he]
      rcases List.mem_cons.mp hf' with h1 | h1
      · exact absurd h1 he
      · exact h.has f' h1
  · intro f' i' hi'
    rw [hf, pget_set] at hi'
    rw [hn]
    by_cases he : f' = f
    · rw [if_pos he] at hi'
      simp only [Option.some.injEq] at hi'
      rw [he, ← hi']; exact hi
    · rw [if_neg he] at hi'
      exact (h.placed f' i' hi').append

lemma DGood.mono {o : Objs} {g : Geo} {flat : Bool} {A A' : List FrameRef} {d : DSt} (h : DGood o g flat A d) (hA : ∀ f ∈ A', f ∈ A) :
    DGood o g flat A' d := ⟨h.ground, fun f hf => h.has f (hA f hf), h.placed⟩

/-- frames that must have been drawn before a call -/
def dneed (o : Objs) : Ev → List FrameRef
  | .initParse _ => []
  | .reg (.frame (.body b)) => [.body b]
  | .reg (.frame (.sub f)) => [.body (o.subBody f)]
  | .reg (.shape s) => [o.shapeFrame s]
  | .reg _ => []
  | .link f0 _ _ => [f0]

/-- frames drawn by a call -/
def dgive (o : Objs) : Ev → List FrameRef
  | .reg (.frame (.sub f)) => [.sub f]
  | .link _ _ f1 => [f1, .body (o.bodyOf f1)]
  | _ => []

def DOrd (o : Objs) : List FrameRef → List Ev → Prop
  | _, [] => True
  | A, e :: l => (∀ r ∈ dneed o e, r ∈ A) ∧ DOrd o (dgive o e ++ A) l

def dafter (o : Objs) (A : List FrameRef) (l : List Ev) : List FrameRef := l.foldl (fun A e => dgive o e ++ A) A

/-- the geometry of a link is consistent -/
def LinkOk (o : Objs) (g : Geo) : Ev → Prop
  | .initParse _ => False
  | .reg _ => True
  | .link f0 j f1 => (∀ x, f0 = .sub x → g.moving x = false) ∧ (∀ x, f1 = .sub x → g.moving x = false) ∧
      (∀ x, f1 = .sub x → IsUnit (g.bpose x).det) ∧ poseOf o g f1 = poseOf o g f0 * g.jpose j

lemma getElem?_new {nodes : List Node} {x : Node} : (nodes ++ [x])[nodes.length]? = some x := by simp

lemma drawEv_ok {o : Objs} {g : Geo} {flat : Bool} {A : List FrameRef} {d : DSt} (h : DGood o g flat A d) {e : Ev}
    (hneed : ∀ r ∈ dneed o e, r ∈ A) (hl : LinkOk o g e) : ∃ d', drawEv o g flat d e = .ok d' ∧ DGood o g flat (dgive o e ++ A) d' := by
  have groundAt : DrawnAt d.nodes 0 1 := .root h.ground
  cases e with
  | initParse _ => exact hl.elim
  | reg x =>
    cases x with
    | frame f =>
      cases f with
      | body b =>
        refine ⟨d, ?_, by simpa [dgive] using h⟩
        obtain ⟨i, hi, _⟩ := h.node (hneed (.body b) (by simp [dneed]))
        simp only [drawEv, drawReg, hi, bind, Except.bind]
        split <;> rfl
      | sub f =>
        obtain ⟨p, hp, hpd⟩ := h.node (hneed (.body (o.subBody f)) (by simp [dneed]))
        by_cases hs : (PDict.get? d.frameNodes (.sub f)).isSome
        · refine ⟨d, by simp [drawEv, drawReg, hs], ⟨h.ground, ?_, h.placed⟩⟩
          intro f' hf'
          simp only [dgive, List.cons_append, List.nil_append, List.mem_cons] at hf'
          rcases hf' with rfl | hf'
          · exact hs
          · exact h.has f' hf'
        · have child : DrawnAt (d.nodes ++ [⟨some p, g.bpose f⟩]) d.nodes.length (g.bodyPose (o.subBody f) * g.bpose f) :=
            .child getElem?_new hpd.append
          by_cases hm : g.moving f = true
          · by_cases hf : flat = true
            · refine ⟨_, by simp only [drawEv, drawReg, hs, hm, hf, if_true, if_false]; rfl, ?_⟩
              refine h.extend (l := [⟨some 0, g.bpose f⟩]) (i := d.nodes.length) rfl rfl ?_
              have := DrawnAt.child (nodes := d.nodes ++ [⟨some 0, g.bpose f⟩]) (i := d.nodes.length) (p := 0) (pose := g.bpose f) getElem?_new groundAt.append
              simpa [drawnPose, hm, hf] using this
            · refine ⟨_, by simp only [drawEv, drawReg, hs, hm, hf, hp, bind, Except.bind, if_true, if_false]; rfl, ?_⟩
              refine h.extend (l := [⟨some p, g.bpose f⟩]) (i := d.nodes.length) rfl rfl ?_
              simpa [drawnPose, hm, hf] using child
          · refine ⟨_, by simp only [drawEv, drawReg, hs, hm, hp, bind, Except.bind, if_false]; rfl, ?_⟩
            refine h.extend (l := [⟨some p, g.bpose f⟩]) (i := d.nodes.length) rfl rfl ?_
            simpa [drawnPose, hm] using child
    | shape s =>
      obtain ⟨i, hi, _⟩ := h.node (hneed (o.shapeFrame s) (by simp [dneed]))
      exact ⟨d, by simp only [drawEv, drawReg, hi, bind, Except.bind]; rfl, by simpa [dgive] using h⟩
    | joint j => exact ⟨d, rfl, by simpa [dgive] using h⟩
    | con c => exact ⟨d, rfl, by simpa [dgive] using h⟩
    | ctrl c => exact ⟨d, rfl, by simpa [dgive] using h⟩
    | other => exact ⟨d, rfl, by simpa [dgive] using h⟩
  | link f0 j f1 =>
    obtain ⟨m0, m1, hu, hpose⟩ := hl
    obtain ⟨p, hp, hpd⟩ := h.node (hneed f0 (by simp [dneed]))
    rw [drawnPose_eq (by intro x hx; simp [m0 x hx])] at hpd
    have viaJoint : ∀ l, DrawnAt (d.nodes ++ ⟨some p, g.jpose j⟩ :: l) d.nodes.length (poseOf o g f1) := by
      intro l
      rw [hpose]
      exact .child (by simp) hpd.append
    have viaGround : ∀ b l, DrawnAt (d.nodes ++ ⟨some 0, g.bodyPose b⟩ :: l) d.nodes.length (g.bodyPose b) := by
      intro b l
      have := DrawnAt.child (nodes := d.nodes ++ ⟨some 0, g.bodyPose b⟩ :: l) (i := d.nodes.length) (p := 0) (pose := g.bodyPose b) (by simp) groundAt.append
      simpa using this
    cases f1 with
    | body b =>
      by_cases hf : flat = true
      · refine ⟨_, by simp only [drawEv, drawLink, hf, if_true]; rfl, ?_⟩
        refine DGood.mono (A := .body b :: A) (h.extend (l := [⟨some 0, g.bodyPose b⟩]) (i := d.nodes.length) rfl rfl (viaGround b [])) ?_
        simp [dgive, Objs.bodyOf]
      · refine ⟨_, by simp only [drawEv, drawLink, hf, hp, bind, Except.bind, if_false]; rfl, ?_⟩
        refine DGood.mono (A := .body b :: A) (h.extend (l := [⟨some p, g.jpose j⟩]) (i := d.nodes.length) rfl rfl ?_) ?_
        · have := viaJoint []
          simpa [poseOf, bposeOf, Objs.bodyOf, drawnPose] using this
        · simp [dgive, Objs.bodyOf]
    | sub f =>
      have hm := m1 f rfl
      by_cases hf : flat = true
      · refine ⟨_, by simp only [drawEv, drawLink, hf, hm, if_true]; rfl, ?_⟩
        have hb := viaGround (o.subBody f) [⟨some d.nodes.length, g.bpose f⟩]
        have hs : DrawnAt (d.nodes ++ [⟨some 0, g.bodyPose (o.subBody f)⟩, ⟨some d.nodes.length, g.bpose f⟩]) (d.nodes.length + 1)
            (g.bodyPose (o.subBody f) * g.bpose f) := .child (by simp) hb
        have g1 : DGood o g flat (.body (o.subBody f) :: A) (DSt.bind { d with nodes := d.nodes ++ [⟨some 0, g.bodyPose (o.subBody f)⟩, ⟨some d.nodes.length, g.bpose f⟩] } (.body (o.subBody f)) d.nodes.length) :=
          h.extend (l := [⟨some 0, g.bodyPose (o.subBody f)⟩, ⟨some d.nodes.length, g.bpose f⟩]) rfl rfl hb
        refine g1.extend (l := []) (i := d.nodes.length + 1) ?_ rfl ?_
        · simp [DSt.bind, DSt.add]
        · rw [List.append_nil]
          simpa [drawnPose, hm, DSt.bind] using hs
      · refine ⟨_, by simp only [drawEv, drawLink, hf, hm, hp, bind, Except.bind, if_false]; rfl, ?_⟩
        have hs := viaJoint [⟨some d.nodes.length, (g.bpose f)⁻¹⟩]
        have hb : DrawnAt (d.nodes ++ [⟨some p, g.jpose j⟩, ⟨some d.nodes.length, (g.bpose f)⁻¹⟩]) (d.nodes.length + 1)
            (g.bodyPose (o.subBody f)) := by
          have : DrawnAt (d.nodes ++ [⟨some p, g.jpose j⟩, ⟨some d.nodes.length, (g.bpose f)⁻¹⟩]) (d.nodes.length + 1) _ :=
            .child (p := d.nodes.length) (pose := (g.bpose f)⁻¹) (by simp) hs
          rw [show poseOf o g (.sub f) = g.bodyPose (o.subBody f) * g.bpose f from rfl, Matrix.mul_nonsing_inv_cancel_right _ _ (hu f rfl)] at this
          exact this
        have g1 : DGood o g flat (.body (o.subBody f) :: A) (DSt.bind { d with nodes := d.nodes ++ [⟨some p, g.jpose j⟩, ⟨some d.nodes.length, (g.bpose f)⁻¹⟩] } (.body (o.subBody f)) (d.nodes.length + 1)) :=
          h.extend (l := [⟨some p, g.jpose j⟩, ⟨some d.nodes.length, (g.bpose f)⁻¹⟩]) rfl rfl hb
        refine g1.extend (l := []) (i := d.nodes.length) ?_ rfl ?_
        · simp [DSt.bind, DSt.add]
        · rw [List.append_nil]
          simpa [drawnPose, hm, poseOf, bposeOf, Objs.bodyOf, DSt.bind] using hs

lemma drawAll_ok {o : Objs} {g : Geo} {flat : Bool} (l : List Ev) : ∀ {A : List FrameRef} {d : DSt}, DGood o g flat A d → DOrd o A l →
    (∀ e ∈ l, LinkOk o g e) → ∃ d', l.foldlM (drawEv o g flat) d = .ok d' ∧ DGood o g flat (dafter o A l) d' := by
  induction l with
  | nil => intro A d h _ _; exact ⟨d, rfl, h⟩
  | cons e l ih =>
    intro A d h ho hl
    obtain ⟨d1, e1, h1⟩ := drawEv_ok h ho.1 (hl e List.mem_cons_self)
    obtain ⟨d2, e2, h2⟩ := ih h1 ho.2 (fun e he => hl e (List.mem_cons_of_mem _ he))
    refine ⟨d2, ?_, h2⟩
    simp only [List.foldlM_cons, e1, bind, Except.bind]
    exact e2

lemma DOrd.mono {o : Objs} {l : List Ev} : ∀ {A A' : List FrameRef}, DOrd o A l → (∀ x ∈ A, x ∈ A') → DOrd o A' l := by
  induction l with
  | nil => intros; trivial
  | cons e l ih =>
    intro A A' h hA
    refine ⟨fun r hr => hA _ (h.1 r hr), ih h.2 ?_⟩
    intro x hx
    simp only [List.mem_append] at hx ⊢
    exact hx.imp id (hA x)

lemma mem_dafter {o : Objs} {l : List Ev} : ∀ {A : List FrameRef} {x : FrameRef}, x ∈ dafter o A l ↔ x ∈ A ∨ ∃ e ∈ l, x ∈ dgive o e := by
  induction l with
  | nil => intro A x; simp [dafter]
  | cons e l ih =>
    intro A x
    rw [show dafter o A (e :: l) = dafter o (dgive o e ++ A) l from rfl, ih]
    simp only [List.mem_append, List.mem_cons, exists_eq_or_imp]
    tauto

lemma DOrd.append {o : Objs} {l1 l2 : List Ev} : ∀ {A : List FrameRef}, DOrd o A l1 → DOrd o (dafter o A l1) l2 → DOrd o A (l1 ++ l2) := by
  induction l1 with
  | nil => intro A _ h; exact h
  | cons e l ih => intro A h1 h2; exact ⟨h1.1, ih h1.2 h2⟩

lemma DOrd.need {o : Objs} {l : List Ev} : ∀ {A : List FrameRef}, DOrd o A l → ∀ e ∈ l, ∀ r ∈ dneed o e, r ∈ dafter o A l := by
  induction l with
  | nil => intro _ _ _ h; cases h
  | cons e l ih =>
    intro A h e' he' r hr
    rw [mem_dafter]
    rcases List.mem_cons.mp he' with rfl | he'
    · exact .inl (h.1 r hr)
    · have := ih h.2 e' he' r hr
      rw [mem_dafter] at this
      simp only [List.mem_append, List.mem_cons, exists_eq_or_imp] at this ⊢
      tauto

lemma DOrd.flat {o : Objs} {l : List Ev} : ∀ {A : List FrameRef}, (∀ e ∈ l, ∀ r ∈ dneed o e, r ∈ A) → DOrd o A l := by
  induction l with
  | nil => intros; trivial
  | cons e l ih =>
    intro A h
    refine ⟨h e List.mem_cons_self, ih ?_⟩
    intro e' he' r hr
    exact List.mem_append_right _ (h e' (List.mem_cons_of_mem _ he') r hr)

lemma bodyCalls_dord {o : Objs} {w : World} {b : ℕ} {A : List FrameRef} (hb : .body b ∈ A) : DOrd o A (bodyCalls o w b) := by
  unfold bodyCalls
  rw [List.cons_append]
  refine ⟨by simpa [dneed] using hb, DOrd.append ?_ ?_⟩
  · have hmem : ∀ f ∈ w.subframes.filter (fun f => o.subBody f = b), o.subBody f = b := by
      intro f hf; simpa using (List.mem_filter.mp hf).2
    revert hmem
    generalize w.subframes.filter (fun f => o.subBody f = b) = l
    have hb' : FrameRef.body b ∈ dgive o (.reg (.frame (.body b))) ++ A := List.mem_append_right _ hb
    generalize dgive o (.reg (.frame (.body b))) ++ A = A' at hb'
    intro hmem
    induction l generalizing A' with
    | nil => trivial
    | cons f l ih =>
      rw [List.flatMap_cons]
      refine DOrd.append (DOrd.append (l1 := [_]) ⟨?_, trivial⟩ (DOrd.flat ?_)) (ih _ ?_ fun f hf => hmem f (List.mem_cons_of_mem _ hf))
      · intro r hr
        simp only [dneed, hmem f List.mem_cons_self, List.mem_singleton] at hr
        rw [hr]; exact hb'
      · intro e he r hr
        obtain ⟨s, _, hs, rfl⟩ := mem_shapeCalls.mp he
        simp only [dneed, hs, List.mem_singleton] at hr
        rw [hr, mem_dafter]
        exact .inr ⟨_, List.mem_cons_self, by simp [dgive]⟩
      · rw [mem_dafter]; exact .inl hb'
  · refine DOrd.flat ?_
    intro e he r hr
    obtain ⟨s, _, hs, rfl⟩ := mem_shapeCalls.mp he
    simp only [dneed, hs, List.mem_singleton] at hr
    rw [hr, mem_dafter]
    exact .inl (List.mem_append_right _ hb)

lemma treeCalls_dord {o : Objs} {w : World} (hI : GInv o w) (hk : ∀ s ∈ w.shapes, Known w (o.shapeFrame s)) {b js F} (h : Unfolds o w b js F)
    (hsub : ∀ j ∈ js, j ∈ (w.body b).children) {A : List FrameRef} (hb : .body b ∈ A)
    (hA : ∀ f ∈ w.subframes, o.subBody f = b → .sub f ∈ A) : DOrd o A (treeCalls o w F) := by
  induction h generalizing A with
  | nil => trivial
  | @cons b j js f0 f1 ch sib h0 h1 hb0 hpar hch hsib ihc ihs =>
    simp only [treeCalls]
    have hbody : FrameRef.body (o.bodyOf f1) ∈ dgive o (.link f0 j f1) ++ A := by simp [dgive]
    refine DOrd.append (DOrd.append (l1 := Ev.link f0 j f1 :: bodyCalls o w (o.bodyOf f1)) ⟨?_, bodyCalls_dord hbody⟩ (ihc (fun _ h => h) ?_ ?_))
      (ihs (fun k hk' => hsub k (List.mem_cons_of_mem _ hk')) ?_ ?_)
    · intro r hr
      simp only [dneed, List.mem_singleton] at hr
      rw [hr]
      have hkn := hI.known b j (hsub j List.mem_cons_self) f0 (Or.inl h0)
      cases f0 with
      | body c => rw [show c = b from hb0]; exact hb
      | sub f => exact hA f hkn hb0
    · rw [mem_dafter]
      exact .inr ⟨_, List.mem_cons_self, by simp [dgive]⟩
    · intro f hf hfb
      rw [mem_dafter]
      exact .inr ⟨.reg (.frame (.sub f)), List.mem_cons_of_mem _ ((mem_bodyCalls hk).mpr (.inr (.inl ⟨f, hf, hfb, rfl⟩))), by simp [dgive]⟩
    · rw [mem_dafter]; exact .inl hb
    · intro f hf hfb
      rw [mem_dafter]; exact .inl (hA f hf hfb)

lemma poses_consistent {o : Objs} {w : World} {g : Geo} {lk : FrameRef × ℕ × FrameRef → Link} {b js F} (h : Unfolds o w b js F)
    (h0 : ∀ l ∈ F.links, (lk l).bpose0 = bposeOf g l.1) (h1 : ∀ l ∈ F.links, (lk l).bpose1 = bposeOf g l.2.2)
    (hj : ∀ l ∈ F.links, (lk l).joint.pose = g.jpose l.2.1) (hr : ∀ l ∈ F.links, IsRigid (bposeOf g l.2.2))
    (hp : ∀ x ∈ updateGeometric (g.bodyPose b) (F.map lk id), g.bodyPose x.1 = x.2) :
    ∀ l ∈ F.links, poseOf o g l.2.2 = poseOf o g l.1 * g.jpose l.2.1 := by
  induction h with
  | nil => intro l hl; cases hl
  | @cons b j js f0 f1 ch sib hf0 hf1 hb0 hpar hch hsib ihc ihs =>
    simp only [Forest.links, List.cons_append, List.mem_cons, List.mem_append] at h0 h1 hj hr
    simp only [Forest.map, updateGeometric, List.mem_cons, List.mem_append] at hp
    have e : g.bodyPose (o.bodyOf f1) = geoStep (g.bodyPose b) (lk (f0, j, f1)) := hp (id (o.bodyOf f1), _) (.inl rfl)
    intro l hl
    simp only [Forest.links, List.cons_append, List.mem_cons, List.mem_append] at hl
    rcases hl with rfl | hl | hl
    · rw [poseOf, e, poseOf, hb0, geoStep, relPose, h0 _ (.inl rfl), h1 _ (.inl rfl), hj _ (.inl rfl)]
      simp only [Matrix.mul_assoc]
      rw [(hr _ (.inl rfl)).invBody_mul, Matrix.mul_one]
    · refine ihc (fun l hl => h0 l (.inr (.inl hl))) (fun l hl => h1 l (.inr (.inl hl))) (fun l hl => hj l (.inr (.inl hl)))
        (fun l hl => hr l (.inr (.inl hl))) ?_ l hl
      intro x hx
      rw [e] at hx
      exact hp x (.inr (.inl hx))
    · exact ihs (fun l hl => h0 l (.inr (.inr hl))) (fun l hl => h1 l (.inr (.inr hl))) (fun l hl => hj l (.inr (.inr hl)))
        (fun l hl => hr l (.inr (.inr hl))) (fun x hx => hp x (.inr (.inr hx))) l hl

lemma Spec.IsRigid.isUnit_det {H : Mat4} (h : IsRigid H) : IsUnit H.det := by
  have := h.mul_invBody
  exact (Matrix.isUnit_iff_isUnit_det _).mp (IsUnit.of_mul_eq_one _ this)

lemma draw_world {o : Objs} {lim gr : ℕ} {ops : List Op} (hh : AllowedHistory o lim (World.new gr) ops) {w : World}
    (hw : w = runAll o lim (World.new gr) ops) {F : Forest (FrameRef × ℕ × FrameRef) ℕ} (hF : IsTree o w F) {lim' : ℕ}
    (hl : depth F ≤ lim') (g : Geo) (lk : FrameRef × ℕ × FrameRef → Link) (hg : GeoOk o g w.ground F lk) (flat : Bool) :
    ∃ calls d, parse o w lim' = .ok calls ∧ draw o g flat calls = .ok d ∧
      ∀ f, o.bodyOf f ∈ w.ground :: F.bodies → Known w f →
        ∃ i, PDict.get? d.frameNodes f = some i ∧ DrawnAt d.nodes i (drawnPose o g flat f) := by
  have hR : RInv o w := hw ▸ RInv.runAll (RInv.new o gr) ops
  have hI : GInv o w := hw ▸ GInv.runAll (GInv.new o gr) hh
  have hk := hR.shape_known
  have hcalls := C59_calls hw hF hl
  obtain ⟨hcb, hcs, _⟩ := C59_complete hw hF hl hcalls
  refine ⟨Ev.initParse w.ground :: bodyCalls o w w.ground ++ treeCalls o w F ++
      w.constraints.map (fun c => Ev.reg (.con c)) ++ w.controllers.map (fun c => Ev.reg (.ctrl c)), ?_⟩
  have hcons := poses_consistent (g := g) hF.unfolds hg.frame0 hg.frame1 hg.joint hg.rigid (by rw [hg.ground]; exact hg.pose)
  set rest := bodyCalls o w w.ground ++ treeCalls o w F ++
      w.constraints.map (fun c => Ev.reg (.con c)) ++ w.controllers.map (fun c => Ev.reg (.ctrl c)) with hrest
  have hord : DOrd o [.body w.ground] rest := by
    rw [hrest]
    refine DOrd.append (DOrd.append (DOrd.append (bodyCalls_dord List.mem_cons_self)
      (treeCalls_dord hI hk hF.unfolds (fun _ h => h) ?_ ?_)) (DOrd.flat ?_)) (DOrd.flat ?_)
    · rw [mem_dafter]; exact .inl List.mem_cons_self
    · intro f hf hfb
      rw [mem_dafter]
      exact .inr ⟨.reg (.frame (.sub f)), (mem_bodyCalls hk).mpr (.inr (.inl ⟨f, hf, hfb, rfl⟩)), by simp [dgive]⟩
    · intro e he
      obtain ⟨c, _, rfl⟩ := List.mem_map.mp he
      simp [dneed]
    · intro e he
      obtain ⟨c, _, rfl⟩ := List.mem_map.mp he
      simp [dneed]
  have bodyLinkOk : ∀ b, ∀ e ∈ bodyCalls o w b, LinkOk o g e := by
    intro b e he
    rcases (mem_bodyCalls hk).mp he with rfl | ⟨_, _, _, rfl⟩ | ⟨_, _, _, rfl⟩ <;> trivial
  have hlink : ∀ e ∈ rest, LinkOk o g e := by
    intro e he
    simp only [hrest, List.mem_append] at he
    rcases he with ((he | he) | he) | he
    · exact bodyLinkOk _ e he
    · rcases mem_treeCalls.mp he with ⟨l, hl, rfl⟩ | ⟨b, _, he⟩
      · exact ⟨(hg.fixed l hl).1, (hg.fixed l hl).2, fun x hx => by have := hg.rigid l hl; rw [hx] at this; exact this.isUnit_det, hcons l hl⟩
      · exact bodyLinkOk b e he
    · obtain ⟨c, _, rfl⟩ := List.mem_map.mp he; trivial
    · obtain ⟨c, _, rfl⟩ := List.mem_map.mp he; trivial
  have h0 : DGood o g flat [.body w.ground] (initParse w.ground) := by
    refine ⟨rfl, by simp [initParse, pget_cons], ?_⟩
    intro f i hi
    simp only [initParse, pget_cons, pget_nil] at hi
    split at hi
    · rename_i he
      simp only [Option.some.injEq] at hi
      rw [← he, ← hi]
      have : DrawnAt (initParse w.ground).nodes 0 1 := .root rfl
      simpa [drawnPose, hg.ground] using this
    · cases hi
  obtain ⟨d, hd, hgood⟩ := drawAll_ok rest h0 hord hlink
  have hrest' : Ev.initParse w.ground :: bodyCalls o w w.ground ++ treeCalls o w F ++
      w.constraints.map (fun c => Ev.reg (.con c)) ++ w.controllers.map (fun c => Ev.reg (.ctrl c)) = .initParse w.ground :: rest := by
    simp [hrest]
  refine ⟨d, hcalls, ?_, ?_⟩
  · rw [hrest', draw, List.foldlM_cons]
    exact hd
  · intro f hfb hkn
    have hin : f ∈ dafter o [.body w.ground] rest := by
      cases f with
      | body b =>
        have hm := (hcb b).mpr hfb
        rw [hrest', List.mem_cons] at hm
        rcases hm with hm | hm
        · cases hm
        · exact hord.need _ hm _ (by simp [dneed])
      | sub x =>
        have hm := (hcs x).mpr ⟨hkn, hfb⟩
        rw [hrest', List.mem_cons] at hm
        rcases hm with hm | hm
        · cases hm
        · rw [mem_dafter]
          exact .inr ⟨_, hm, by simp [dgive]⟩
    obtain ⟨i, hi⟩ := Option.isSome_iff_exists.mp (hgood.has f hin)
    exact ⟨i, hi, hgood.placed f i hi⟩

/-- C76, full claim: on a world obtained through the API, whose poses are up to date, `world.parse(drawer)` goes through
in both modes, and every body and every registered subframe (`Known`) is drawn at its pose. -/
def C76_Claim : Prop := ∀ (o : Objs) (lim gr : ℕ) (ops : List Op) (w : World) (F : Forest (FrameRef × ℕ × FrameRef) ℕ) (lim' : ℕ)
    (g : Geo) (lk : FrameRef × ℕ × FrameRef → Link) (flat : Bool),
    AllowedHistory o lim (World.new gr) ops → w = runAll o lim (World.new gr) ops → IsTree o w F → depth F ≤ lim' →
    GeoOk o g w.ground F lk → ∃ calls d, parse o w lim' = .ok calls ∧ draw o g flat calls = .ok d ∧
      ∀ f, o.bodyOf f ∈ w.ground :: F.bodies → Known w f →
        ∃ i, PDict.get? d.frameNodes f = some i ∧ DrawnAt d.nodes i (poseOf o g f)

/-- C76: it holds in hierarchical mode for every frame, and in flat mode for every frame but the moving subframes. -/
theorem C76_partial {o : Objs} {lim gr : ℕ} {ops : List Op} (hh : AllowedHistory o lim (World.new gr) ops) {w : World}
    (hw : w = runAll o lim (World.new gr) ops) {F : Forest (FrameRef × ℕ × FrameRef) ℕ} (hF : IsTree o w F) {lim' : ℕ}
    (hl : depth F ≤ lim') (g : Geo) (lk : FrameRef × ℕ × FrameRef → Link) (hg : GeoOk o g w.ground F lk) (flat : Bool) :
    ∃ calls d, parse o w lim' = .ok calls ∧ draw o g flat calls = .ok d ∧
      ∀ f, o.bodyOf f ∈ w.ground :: F.bodies → Known w f → (flat = true → ∀ x, f = .sub x → g.moving x = false) →
        ∃ i, PDict.get? d.frameNodes f = some i ∧ DrawnAt d.nodes i (poseOf o g f) := by
  obtain ⟨calls, d, h1, h2, h3⟩ := draw_world hh hw hF hl g lk hg flat
  refine ⟨calls, d, h1, h2, ?_⟩
  intro f hfb hkn hm
  obtain ⟨i, hi, hd⟩ := h3 f hfb hkn
  refine ⟨i, hi, ?_⟩
  rw [drawnPose_eq] at hd
  · exact hd
  · rintro x hx ⟨e1, e2⟩
    rw [hm e1 x hx] at e2
    cases e2

/-! ### A world: a body one metre away from the ground, carrying a moving subframe -/

def exDO : Objs := ⟨fun _ => 1, fun _ => .sub 0, fun _ => [], fun _ => 0⟩
def exDOps : List Op := [.addLink [.frame (.body 0), .joint 0, .frame (.body 1)], .register (.frame (.sub 0)), .register (.shape 0)]
def exDF : Forest (FrameRef × ℕ × FrameRef) ℕ := .cons (.body 0, 0, .body 1) 1 .nil .nil
noncomputable def exDT : Mat4 := mkH 1 ![1, 0, 0]
noncomputable def exDG : Geo := ⟨fun _ => true, fun _ => 1, fun _ => exDT, fun b => if b = 0 then 1 else exDT, fun _ => true⟩
noncomputable def exDL : FrameRef × ℕ × FrameRef → Link := fun _ => ⟨0, 0, ⟨exDT, 0, 0, 0, 0⟩, 1, 1⟩

lemma exD_tree : IsTree exDO (runAll exDO 9 (World.new 0) exDOps) exDF := by
  have hw : (runAll exDO 9 (World.new 0) exDOps).ground = 0 := rfl
  have hj : (runAll exDO 9 (World.new 0) exDOps).joint 0 = ⟨some (.body 0), some (.body 1), none⟩ := rfl
  have hb0 : (runAll exDO 9 (World.new 0) exDOps).body 0 = ⟨none, [0]⟩ := rfl
  have hb1 : (runAll exDO 9 (World.new 0) exDOps).body 1 = ⟨some 0, []⟩ := rfl
  refine ⟨?_, by rw [hw, hb0], by rw [hw]; decide, by decide⟩
  rw [hw, hb0]
  refine Unfolds.cons (f0 := .body 0) (f1 := .body 1) (by rw [hj]) (by rw [hj]) rfl (by rw [show exDO.bodyOf (.body 1) = 1 from rfl, hb1]) ?_ (.nil _)
  rw [show exDO.bodyOf (.body 1) = 1 from rfl, hb1]
  exact .nil _

lemma exD_allowed : AllowedHistory exDO 9 (World.new 0) exDOps := by
  refine ⟨?_, trivial, trivial, trivial⟩
  intro f hf
  simp only [frame1s, List.mem_singleton, Arg.frame.injEq] at hf
  subst hf
  decide

lemma exD_geo : GeoOk exDO exDG 0 exDF exDL := by
  have e : invBody (1 : Mat4) = 1 := by
    have := isRigid_one.mul_invBody
    rwa [Matrix.one_mul] at this
  refine ⟨?_, ?_, ?_, ?_, rfl, fun l hl => by simp [exDF, Forest.links] at hl; subst hl; exact isRigid_one, ?_⟩
  · intro l hl; simp [exDF, Forest.links] at hl; subst hl; rfl
  · intro l hl; simp [exDF, Forest.links] at hl; subst hl; rfl
  · intro l hl; simp [exDF, Forest.links] at hl; subst hl; rfl
  · intro x hx
    simp only [worldGeometric, exDF, Forest.map, updateGeometric, List.append_nil, List.mem_singleton] at hx
    subst hx
    simp [exDG, geoStep, relPose, exDL, e]
  · intro l hl; simp [exDF, Forest.links] at hl; subst hl; simp

/-- C76 is false in flat mode: a moving subframe is attached to the ground's node with its pose in its body. -/
theorem C76_false : ¬ C76_Claim := by
  intro h
  obtain ⟨calls, d, h1, h2, h3⟩ := h exDO 9 0 exDOps _ exDF 9 exDG exDL true exD_allowed rfl exD_tree (by decide) exD_geo
  obtain ⟨calls', d', h1', h2', h3'⟩ := draw_world exD_allowed rfl exD_tree (lim' := 9) (by decide) exDG exDL exD_geo true
  rw [h1] at h1'; cases h1'
  rw [h2] at h2'; cases h2'
  have hk : Known (runAll exDO 9 (World.new 0) exDOps) (.sub 0) := by
    change 0 ∈ [0]; simp
  obtain ⟨i, hi, hd⟩ := h3 (.sub 0) (by decide) hk
  obtain ⟨i', hi', hd'⟩ := h3' (.sub 0) (by decide) hk
  rw [hi] at hi'; cases hi'
  have := C76_unique hd hd'
  simp only [poseOf, bposeOf, drawnPose, exDG, Objs.bodyOf, exDO, exDT, Bool.and_true, if_true, Matrix.mul_one] at this
  have e := congrFun (congrFun this 0) 3
  simp [mkH] at e

/-- In hierarchical mode the same subframe is drawn at its pose, one metre away: the hypotheses of C76 are met. -/
example : ∃ calls d, parse exDO (runAll exDO 9 (World.new 0) exDOps) 9 = .ok calls ∧ draw exDO exDG false calls = .ok d ∧
    ∃ i, PDict.get? d.frameNodes (.sub 0) = some i ∧ DrawnAt d.nodes i exDT := by
  obtain ⟨calls, d, h1, h2, h3⟩ := C76_partial exD_allowed rfl exD_tree (lim' := 9) (by decide) exDG exDL exD_geo false
  refine ⟨calls, d, h1, h2, ?_⟩
  have hk : Known (runAll exDO 9 (World.new 0) exDOps) (.sub 0) := by
    change 0 ∈ [0]; simp
  have := h3 (.sub 0) (by decide) hk (by simp)
  simpa [poseOf, bposeOf, exDG, Objs.bodyOf, exDO] using this

end Arboris
