import Verif.Spec.Build
import Verif.Props.Graft

/-! # Lemmas about programs that build worlds -/

namespace Arboris
open Graph Spec Build

lemma Spec.Runs.bind {α β : Type} {p : Prog α} {q : α → Prog β} {S S' S'' : RS} {a : α} {b : β} (h : Runs p S a S')
    (h' : Runs (q a) S' b S'') : Runs (p >>= q) S b S'' := by
  unfold Runs at *
  change (StateT.bind p q) S = _
  simp only [StateT.bind, h, bind, Except.bind]
  exact h'

lemma Runs.pure {α : Type} (a : α) (S : RS) : Runs (Pure.pure a) S a S := rfl

lemma Runs.check {p : Prop} (h : p) (S : RS) : Runs (check p) S () S := by simp [Runs, Build.check, h]

lemma Runs.liftE {α : Type} {x : Except PyErr α} {a : α} (h : x = .ok a) (S : RS) : Runs (liftE x) S a S := by
  simp [Runs, Build.liftE, h]

lemma Runs.ground (S : RS) : Runs Build.ground S (.body S.w.ground) S := rfl

lemma Spec.Keeps.refl (S : RS) : Keeps S S :=
  ⟨le_rfl, le_rfl, le_rfl, le_rfl, rfl, fun _ _ => ⟨rfl, rfl⟩, fun _ _ => ⟨rfl, rfl, rfl⟩, fun _ _ => ⟨rfl, rfl, rfl⟩,
    fun _ _ => ⟨rfl, rfl, rfl⟩, fun _ h => h, fun _ h => h⟩

lemma Spec.Keeps.trans {S S' S'' : RS} (h : Keeps S S') (h' : Keeps S' S'') : Keeps S S'' where
  nb := h.nb.trans h'.nb
  nj := h.nj.trans h'.nj
  ns := h.ns.trans h'.ns
  nsh := h.nsh.trans h'.nsh
  ground := h'.ground.trans h.ground
  body b hb := by
    obtain ⟨a1, a2⟩ := h.body b hb
    obtain ⟨b1, b2⟩ := h'.body b (hb.trans_le h.nb)
    exact ⟨b1.trans a1, b2.trans a2⟩
  joint b hb := by
    obtain ⟨a1, a2, a3⟩ := h.joint b hb
    obtain ⟨b1, b2, b3⟩ := h'.joint b (hb.trans_le h.nj)
    exact ⟨b1.trans a1, b2.trans a2, b3.trans a3⟩
  sub b hb := by
    obtain ⟨a1, a2, a3⟩ := h.sub b hb
    obtain ⟨b1, b2, b3⟩ := h'.sub b (hb.trans_le h.ns)
    exact ⟨b1.trans a1, b2.trans a2, b3.trans a3⟩
  shape b hb := by
    obtain ⟨a1, a2, a3⟩ := h.shape b hb
    obtain ⟨b1, b2, b3⟩ := h'.shape b (hb.trans_le h.nsh)
    exact ⟨b1.trans a1, b2.trans a2, b3.trans a3⟩
  subframes f hf := h'.subframes f (h.subframes f hf)
  shapes f hf := h'.shapes f (h.shapes f hf)

lemma Spec.Keeps.old {S S' : RS} (h : Keeps S S') {f : FrameRef} (hf : Old S f) : Old S' f := by
  cases f with
  | body b => exact lt_of_lt_of_le hf h.nb
  | sub f => exact lt_of_lt_of_le hf h.ns

lemma Spec.Keeps.bodyOf {S S' : RS} (h : Keeps S S') {f : FrameRef} (hf : Old S f) : S'.o.bodyOf f = S.o.bodyOf f := by
  cases f with
  | body b => rfl
  | sub f => exact (h.sub f hf).2.2

lemma Spec.Keeps.bposeOf {S S' : RS} (h : Keeps S S') {f : FrameRef} (hf : Old S f) : S'.bposeOf f = S.bposeOf f := by
  cases f with
  | body b => rfl
  | sub f => exact (h.sub f hf).1

/-- objects not used yet stay so -/
structure KeepsFresh (S S' : RS) (B J : List ℕ) : Prop where
  body : ∀ b, FreshBody S.w b → b ∉ B → FreshBody S'.w b
  joint : ∀ j, FreshJoint S.w j → j ∉ J → FreshJoint S'.w j

lemma KeepsFresh.refl (S : RS) : KeepsFresh S S [] [] := ⟨fun _ h _ => h, fun _ h _ => h⟩

lemma KeepsFresh.trans {S S' S'' : RS} {B J B' J' : List ℕ} (h : KeepsFresh S S' B J) (h' : KeepsFresh S' S'' B' J') :
    KeepsFresh S S'' (B ++ B') (J ++ J') := by
  constructor
  · intro b hb hn
    simp only [List.mem_append, not_or] at hn
    exact h'.body b (h.body b hb hn.1) hn.2
  · intro b hb hn
    simp only [List.mem_append, not_or] at hn
    exact h'.joint b (h.joint b hb hn.1) hn.2

lemma Spec.Unfolds.congr {o o' : Objs} {w w' : World} {b js F} (h : Unfolds o w b js F) (hb : ∀ c ∈ F.bodies, w'.body c = w.body c)
    (hj : ∀ j ∈ joints F, w'.joint j = w.joint j)
    (hf : ∀ l ∈ F.links, o'.bodyOf l.1 = o.bodyOf l.1 ∧ o'.bodyOf l.2.2 = o.bodyOf l.2.2) : Unfolds o' w' b js F := by
  induction h with
  | nil b => exact .nil b
  | @cons b j js f0 f1 ch sib h0 h1 hb' hp hch hsib ih1 ih2 =>
    simp only [Forest.bodies, List.cons_append, List.mem_cons, List.mem_append] at hb
    simp only [joints, Forest.links, List.cons_append, List.map_cons, List.map_append, List.mem_cons, List.mem_append] at hj
    simp only [Forest.links, List.cons_append, List.mem_cons, List.mem_append] at hf
    have e1 := hf _ (.inl rfl)
    have ej := hj _ (.inl rfl)
    have eb := hb _ (.inl rfl)
    have := ih1 (fun c hc => hb c (.inr (.inl hc))) (fun c hc => hj c (.inr (.inl hc))) (fun c hc => hf c (.inr (.inl hc)))
    have i2 := ih2 (fun c hc => hb c (.inr (.inr hc))) (fun c hc => hj c (.inr (.inr hc))) (fun c hc => hf c (.inr (.inr hc)))
    have e2 : o'.bodyOf f1 = o.bodyOf f1 := e1.2
    rw [← e2]
    refine .cons (by rw [ej]; exact h0) (by rw [ej]; exact h1) (e1.1.trans hb') (by rw [e2, eb]; exact hp) ?_ i2
    rw [e2, eb]; exact this

lemma Spec.IsTree.congr {o o' : Objs} {w w' : World} {F} (h : IsTree o w F) (hg : w'.ground = w.ground)
    (hb : ∀ c ∈ w.ground :: F.bodies, w'.body c = w.body c) (hj : ∀ j ∈ joints F, w'.joint j = w.joint j)
    (hf : ∀ l ∈ F.links, o'.bodyOf l.1 = o.bodyOf l.1 ∧ o'.bodyOf l.2.2 = o.bodyOf l.2.2) : IsTree o' w' F := by
  have eg := hb _ List.mem_cons_self
  refine ⟨?_, by rw [hg, eg]; exact h.root, by rw [hg]; exact h.bodies_nodup, h.joints_nodup⟩
  rw [hg, eg]
  exact h.unfolds.congr (fun c hc => hb c (List.mem_cons_of_mem _ hc)) hj hf

lemma Spec.Good.body_lt {S : RS} {F} (h : Good S F) {b : ℕ} (hb : b ∈ S.w.ground :: F.bodies) : b < S.nb := by
  rcases List.mem_cons.mp hb with rfl | hb
  · exact h.ground
  · exact h.bodies b hb

lemma Spec.Good.not_fresh {S : RS} {F} (h : Good S F) {b : ℕ} (hb : b ∈ S.w.ground :: F.bodies) : ¬ FreshBody S.w b := by
  intro hf
  rcases List.mem_cons.mp hb with h' | h'
  · exact hf.1 h'
  · exact h.tree.unfolds.parent_some b h' hf.2.1

section ops
variable {S : RS} {F : Forest (FrameRef × ℕ × FrameRef) ℕ}

lemma newBody_runs (hg : Good S F) (name : Option String) {mass : Option Mat6} (hm : mass = none ∨ ismassmatrix (mass.getD 0) true) :
    ∃ S', Runs (newBody name mass) S S.nb S' ∧ Good S' F ∧ Keeps S S' ∧ KeepsFresh S S' [] [] ∧
      FreshBody S'.w S.nb ∧ S'.mass S.nb = mass.getD 0 ∧ S'.bname S.nb = name ∧
      S'.nb = S.nb + 1 ∧ S'.nj = S.nj ∧ S'.ns = S.ns ∧ S'.nsh = S.nsh ∧ S'.w.subframes = S.w.subframes := by
  refine ⟨{ S with nb := S.nb + 1, mass := Function.update S.mass S.nb (mass.getD 0), bname := Function.update S.bname S.nb name,
                        w := { S.w with body := Function.update S.w.body S.nb {} } }, by unfold Runs newBody; rw [if_pos hm], ?_, ?_, ?_, ?_, ?_, ?_, rfl, rfl, rfl, rfl, rfl⟩
  · refine ⟨?_, by have := hg.ground; change S.w.ground < S.nb + 1; omega, ?_, ?_, hg.joints, hg.ndof⟩
    · refine hg.tree.congr rfl ?_ (fun _ _ => rfl) (fun _ _ => ⟨rfl, rfl⟩)
      intro c hc
      have := hg.body_lt hc
      simp only
      rw [Function.update_of_ne (by omega)]
    · intro b hb
      have := hg.bodies b hb
      change b < S.nb + 1; omega
    · intro l hl
      obtain ⟨h1, h2⟩ := hg.frames l hl
      have : ∀ f, Old S f → Old { S with nb := S.nb + 1 } f := by
        intro f hf
        cases f with
        | body b => exact Nat.lt_succ_of_lt hf
        | sub f => exact hf
      exact ⟨by cases h : l.1 <;> rw [h] at h1 <;> [exact Nat.lt_succ_of_lt h1; exact h1],
        by cases h : l.2.2 <;> rw [h] at h2 <;> [exact Nat.lt_succ_of_lt h2; exact h2]⟩
  · refine ⟨Nat.le_succ _, le_rfl, le_rfl, le_rfl, rfl, ?_, fun _ _ => ⟨rfl, rfl, rfl⟩, fun _ _ => ⟨rfl, rfl, rfl⟩,
      fun _ _ => ⟨rfl, rfl, rfl⟩, fun _ h => h, fun _ h => h⟩
    intro b hb
    simp only
    rw [Function.update_of_ne (by omega), Function.update_of_ne (by omega)]
    exact ⟨rfl, rfl⟩
  · refine ⟨?_, fun _ h _ => h⟩
    intro b hb _
    obtain ⟨a1, a2, a3⟩ := hb
    by_cases e : b = S.nb
    · subst e; exact ⟨a1, by simp, by simp⟩
    · exact ⟨a1, by simp [e, a2], by simp [e, a3]⟩
  · exact ⟨by have := hg.ground; change S.nb ≠ S.w.ground; omega, by simp, by simp⟩
  · simp
  · simp

lemma newSub_runs (hg : Good S F) (b : ℕ) {H : Mat4} (hH : ishomogeneousmatrix H) (name : Option String) :
    ∃ S', Runs (newSub b H name) S S.ns S' ∧ Good S' F ∧ Keeps S S' ∧ KeepsFresh S S' [] [] ∧
      S'.o.subBody S.ns = b ∧ S'.bpose S.ns = H ∧ S'.fname S.ns = name ∧
      S'.nb = S.nb ∧ S'.nj = S.nj ∧ S'.ns = S.ns + 1 ∧ S'.nsh = S.nsh ∧ S'.w = S.w := by
  refine ⟨{ S with ns := S.ns + 1, o := { S.o with subBody := Function.update S.o.subBody S.ns b },
                        bpose := Function.update S.bpose S.ns H, fname := Function.update S.fname S.ns name }, by unfold Runs newSub; rw [if_pos hH], ?_, ?_, ?_, ?_, ?_, ?_, rfl, rfl, rfl, rfl, rfl⟩
  · refine ⟨?_, hg.ground, hg.bodies, ?_, hg.joints, hg.ndof⟩
    · refine hg.tree.congr rfl (fun _ _ => rfl) (fun _ _ => rfl) ?_
      intro l hl
      have key : ∀ f, Old S f → Objs.bodyOf { S.o with subBody := Function.update S.o.subBody S.ns b } f = S.o.bodyOf f := by
        intro f hf
        cases f with
        | body b => rfl
        | sub f =>
          have : f < S.ns := hf
          simp only [Objs.bodyOf]
          rw [Function.update_of_ne (by omega)]
      exact ⟨key _ (hg.frames l hl).1, key _ (hg.frames l hl).2⟩
    · intro l hl
      obtain ⟨h1, h2⟩ := hg.frames l hl
      exact ⟨by cases h : l.1 <;> rw [h] at h1 <;> [exact h1; exact Nat.lt_succ_of_lt h1],
        by cases h : l.2.2 <;> rw [h] at h2 <;> [exact h2; exact Nat.lt_succ_of_lt h2]⟩
  · refine ⟨le_rfl, le_rfl, Nat.le_succ _, le_rfl, rfl, fun _ _ => ⟨rfl, rfl⟩, fun _ _ => ⟨rfl, rfl, rfl⟩, ?_,
      fun _ _ => ⟨rfl, rfl, rfl⟩, fun _ h => h, fun _ h => h⟩
    intro f hf
    simp only
    rw [Function.update_of_ne (by omega), Function.update_of_ne (by omega), Function.update_of_ne (by omega)]
    exact ⟨rfl, rfl, rfl⟩
  · exact ⟨fun _ h _ => h, fun _ h _ => h⟩
  · simp
  · simp
  · simp

lemma newJoint_runs (hg : Good S F) (a : JAttr) (name : Option String) :
    ∃ S', Runs (newJoint a name) S S.nj S' ∧ Good S' F ∧ Keeps S S' ∧ KeepsFresh S S' [] [] ∧
      FreshJoint S'.w S.nj ∧ S'.jattr S.nj = a ∧ S'.jname S.nj = name ∧ S'.o.ndof S.nj = a.ndof ∧
      S'.nb = S.nb ∧ S'.nj = S.nj + 1 ∧ S'.ns = S.ns ∧ S'.nsh = S.nsh ∧ S'.w.subframes = S.w.subframes := by
  refine ⟨{ S with nj := S.nj + 1, o := { S.o with ndof := Function.update S.o.ndof S.nj a.ndof },
                      jattr := Function.update S.jattr S.nj a, jname := Function.update S.jname S.nj name,
                      w := { S.w with joint := Function.update S.w.joint S.nj {} } }, by unfold Runs newJoint; rfl, ?_, ?_, ?_, ?_, ?_, ?_, ?_, rfl, rfl, rfl, rfl, rfl⟩
  · refine ⟨?_, hg.ground, hg.bodies, hg.frames, ?_, ?_⟩
    · refine hg.tree.congr rfl (fun _ _ => rfl) ?_ ?_
      · intro j hj
        have := hg.joints j hj
        simp only
        rw [Function.update_of_ne (by omega)]
      · intro l _
        exact ⟨by cases l.1 <;> rfl, by cases l.2.2 <;> rfl⟩
    · intro j hj
      have := hg.joints j hj
      change j < S.nj + 1
      omega
    · intro j hj
      have := hg.joints j hj
      simp only
      rw [Function.update_of_ne (by omega), Function.update_of_ne (by omega)]
      exact hg.ndof j hj
  · refine ⟨le_rfl, Nat.le_succ _, le_rfl, le_rfl, rfl, fun _ _ => ⟨rfl, rfl⟩, ?_, fun _ _ => ⟨rfl, rfl, rfl⟩,
      fun _ _ => ⟨rfl, rfl, rfl⟩, fun _ h => h, fun _ h => h⟩
    intro j hj
    simp only
    rw [Function.update_of_ne (by omega), Function.update_of_ne (by omega), Function.update_of_ne (by omega)]
    exact ⟨rfl, rfl, rfl⟩
  · refine ⟨fun _ h _ => h, ?_⟩
    intro j hj _
    obtain ⟨a1, a2⟩ := hj
    by_cases e : j = S.nj
    · subst e; exact ⟨by simp, by simp⟩
    · exact ⟨by simp [e, a1], by simp [e, a2]⟩
  · exact ⟨by simp, by simp⟩
  · simp
  · simp
  · simp

lemma newShape_runs (hg : Good S F) (f : FrameRef) {g : ShapeGeo} (ho : g.ok) (name : Option String) :
    ∃ S', Runs (newShape f g name) S S.nsh S' ∧ Good S' F ∧ Keeps S S' ∧ KeepsFresh S S' [] [] ∧
      S'.o.shapeFrame S.nsh = f ∧ S'.geo S.nsh = g.stored ∧ S'.shname S.nsh = name ∧
      S'.nb = S.nb ∧ S'.nj = S.nj ∧ S'.ns = S.ns ∧ S'.nsh = S.nsh + 1 ∧ S'.w = S.w := by
  refine ⟨{ S with nsh := S.nsh + 1, o := { S.o with shapeFrame := Function.update S.o.shapeFrame S.nsh f },
                       geo := Function.update S.geo S.nsh g.stored, shname := Function.update S.shname S.nsh name }, by unfold Runs newShape; rw [if_neg (not_not.mpr ho)], ?_, ?_, ?_, ?_, ?_, ?_, rfl, rfl, rfl, rfl, rfl⟩
  · refine ⟨?_, hg.ground, hg.bodies, hg.frames, hg.joints, hg.ndof⟩
    refine hg.tree.congr rfl (fun _ _ => rfl) (fun _ _ => rfl) ?_
    intro l _
    exact ⟨by cases l.1 <;> rfl, by cases l.2.2 <;> rfl⟩
  · refine ⟨le_rfl, le_rfl, le_rfl, Nat.le_succ _, rfl, fun _ _ => ⟨rfl, rfl⟩, fun _ _ => ⟨rfl, rfl, rfl⟩, fun _ _ => ⟨rfl, rfl, rfl⟩,
      ?_, fun _ h => h, fun _ h => h⟩
    intro f hf
    simp only
    rw [Function.update_of_ne (by omega), Function.update_of_ne (by omega), Function.update_of_ne (by omega)]
    exact ⟨rfl, rfl, rfl⟩
  · exact ⟨fun _ h _ => h, fun _ h _ => h⟩
  · simp
  · simp
  · simp

/-- only the world changes -/
lemma keeps_world {w : World} (h1 : w.ground = S.w.ground) (h2 : ∀ f ∈ S.w.subframes, f ∈ w.subframes)
    (h3 : ∀ f ∈ S.w.shapes, f ∈ w.shapes) : Keeps S { S with w := w } :=
  ⟨le_rfl, le_rfl, le_rfl, le_rfl, h1, fun _ _ => ⟨rfl, rfl⟩, fun _ _ => ⟨rfl, rfl, rfl⟩, fun _ _ => ⟨rfl, rfl, rfl⟩,
    fun _ _ => ⟨rfl, rfl, rfl⟩, h2, h3⟩

lemma good_old {w : World} {l : FrameRef × ℕ × FrameRef} (h : Old S l.1 ∧ Old S l.2.2) :
    Old { S with w := w } l.1 ∧ Old { S with w := w } l.2.2 := by
  obtain ⟨h1, h2⟩ := h
  exact ⟨by cases h : l.1 <;> rw [h] at h1 <;> exact h1, by cases h : l.2.2 <;> rw [h] at h2 <;> exact h2⟩

lemma link_runs (hg : Good S F) {f0 : FrameRef} {j b : ℕ} (h0 : Old S f0) (hb0 : S.o.bodyOf f0 ∈ S.w.ground :: F.bodies)
    (hj : FreshJoint S.w j) (hjl : j < S.nj) (hjn : S.o.ndof j = (S.jattr j).ndof) (hb : FreshBody S.w b) (hbl : b < S.nb) :
    ∃ w', Runs (link f0 j (.body b)) S () { S with w := w' } ∧ Good { S with w := w' } (graft S.o S.w.ground F (f0, j, .body b)) ∧
      Keeps S { S with w := w' } ∧ KeepsFresh S { S with w := w' } [b] [j] ∧ Known w' f0 := by
  obtain ⟨w', e, eg, ht, hfb, hfj, hk, hk0, hk1, es, _⟩ := C80_graft (f1 := .body b) hg.tree hb0 hj hb
  have hp : ∃ p, (S.o.bodyOf f0 = S.w.ground ∧ p = []) ∨ (S.o.bodyOf f0, p) ∈ F.paths := by
    rcases List.mem_cons.mp hb0 with h | h
    · exact ⟨[], .inl ⟨h, rfl⟩⟩
    · obtain ⟨p, hp⟩ := (Forest.mem_bodies_iff _ _).mp h
      exact ⟨p, .inr hp⟩
  obtain ⟨p, hp⟩ := hp
  obtain ⟨q1, q2, _⟩ := C80_paths (j := j) (f1 := .body b) hg.tree hp
  refine ⟨w', by unfold Runs link; rw [e], ⟨ht, by rw [show ({ S with w := w' } : RS).w.ground = w'.ground from rfl, eg]; exact hg.ground, ?_, ?_, ?_, ?_⟩, ?_, ?_, hk0⟩
  · intro c hc
    rw [q1.mem_iff, List.mem_append, List.mem_singleton] at hc
    rcases hc with hc | rfl
    · exact hg.bodies c hc
    · exact hbl
  · intro l hl
    rw [q2.mem_iff, List.mem_append, List.mem_singleton] at hl
    apply good_old
    rcases hl with hl | rfl
    · exact hg.frames l hl
    · exact ⟨h0, hbl⟩
  · intro k hk'
    rw [joints, (q2.map _).mem_iff, List.map_append, List.mem_append] at hk'
    rcases hk' with hk' | hk'
    · exact hg.joints k hk'
    · simp at hk'; subst hk'; exact hjl
  · intro k hk'
    rw [joints, (q2.map _).mem_iff, List.map_append, List.mem_append] at hk'
    rcases hk' with hk' | hk'
    · exact hg.ndof k hk'
    · simp at hk'; subst hk'; exact hjn
  · exact keeps_world eg (fun f hf => hk (.sub f) hf) (fun s hs => by rw [es]; exact hs)
  · refine ⟨?_, ?_⟩
    · intro c hc hn
      simp only [List.mem_singleton] at hn
      exact hfb c hn hc (fun h => hg.not_fresh hb0 (h ▸ hc))
    · intro k hk' hn
      simp only [List.mem_singleton] at hn
      exact hfj k hn hk'

lemma regFrame_runs (hg : Good S F) (f : FrameRef) :
    ∃ w', Runs (reg (.frame f)) S () { S with w := w' } ∧ Good { S with w := w' } F ∧ Keeps S { S with w := w' } ∧
      KeepsFresh S { S with w := w' } [] [] ∧ Known w' f := by
  have eb : (registerFrame S.w f).body = S.w.body := by cases f <;> rfl
  have ej : (registerFrame S.w f).joint = S.w.joint := by cases f <;> rfl
  have eg : (registerFrame S.w f).ground = S.w.ground := by cases f <;> rfl
  refine ⟨registerFrame S.w f, rfl, ⟨?_, by rw [show ({ S with w := registerFrame S.w f } : RS).w.ground = (registerFrame S.w f).ground from rfl, eg]; exact hg.ground,
    hg.bodies, fun l hl => good_old (hg.frames l hl), hg.joints, hg.ndof⟩, ?_, ⟨?_, ?_⟩, registerFrame_known _ _⟩
  · exact hg.tree.congr eg (fun c _ => by rw [eb]) (fun c _ => by rw [ej]) (fun _ _ => ⟨rfl, rfl⟩)
  · exact keeps_world eg (registerFrame_subset _ _) (by intro s hs; cases f <;> exact hs)
  · intro b hb _; rw [FreshBody, eg, eb]; exact hb
  · intro b hb _; rw [FreshJoint, ej]; exact hb

lemma regShape_runs (hg : Good S F) (s : ℕ) :
    ∃ w', Runs (reg (.shape s)) S () { S with w := w' } ∧ Good { S with w := w' } F ∧ Keeps S { S with w := w' } ∧
      KeepsFresh S { S with w := w' } [] [] ∧ s ∈ w'.shapes ∧ Known w' (S.o.shapeFrame s) := by
  generalize hw : registerFrame { S.w with shapes := addNew S.w.shapes s } (S.o.shapeFrame s) = w'
  have eb : w'.body = S.w.body := by subst hw; cases S.o.shapeFrame s <;> rfl
  have ej : w'.joint = S.w.joint := by subst hw; cases S.o.shapeFrame s <;> rfl
  have eg : w'.ground = S.w.ground := by subst hw; cases S.o.shapeFrame s <;> rfl
  have es : w'.shapes = addNew S.w.shapes s := by subst hw; cases S.o.shapeFrame s <;> rfl
  refine ⟨w', by subst hw; rfl, ⟨?_, by rw [show ({ S with w := w' } : RS).w.ground = w'.ground from rfl, eg]; exact hg.ground,
    hg.bodies, fun l hl => good_old (hg.frames l hl), hg.joints, hg.ndof⟩, ?_, ⟨?_, ?_⟩, ?_, ?_⟩
  · exact hg.tree.congr eg (fun c _ => by rw [eb]) (fun c _ => by rw [ej]) (fun _ _ => ⟨rfl, rfl⟩)
  · refine keeps_world eg ?_ ?_
    · subst hw
      exact fun f hf => registerFrame_subset _ _ f hf
    · intro x hx; rw [es, addNew]; split
      · exact hx
      · exact List.mem_append_left _ hx
  · intro b hb _; rw [FreshBody, eg, eb]; exact hb
  · intro b hb _; rw [FreshJoint, ej]; exact hb
  · rw [es, addNew]; split
    · assumption
    · simp
  · subst hw; exact registerFrame_known _ _

lemma numberStep_other (o : Objs) (js : List ℕ) (w : World) : (js.foldl (numberStep o) w).subframes = w.subframes ∧
    (js.foldl (numberStep o) w).shapes = w.shapes ∧ (js.foldl (numberStep o) w).ground = w.ground ∧
    (js.foldl (numberStep o) w).body = w.body ∧
    ∀ k, ((js.foldl (numberStep o) w).joint k).frame0 = (w.joint k).frame0 ∧ ((js.foldl (numberStep o) w).joint k).frame1 = (w.joint k).frame1 := by
  induction js generalizing w with
  | nil => simp
  | cons j js ih =>
    obtain ⟨a1, a2, a3, a4, a5⟩ := ih (numberStep o w j)
    rw [List.foldl_cons]
    refine ⟨a1, a2, a3, a4, ?_⟩
    intro k
    rw [(a5 k).1, (a5 k).2]
    by_cases e : k = j
    · subst e; simp [numberStep]
    · simp [numberStep, e]

lemma init_runs (hg : Good S F) {lim : ℕ} (hl : depth F < lim) :
    ∃ w', Runs (Build.init lim) S () { S with w := w' } ∧ Good { S with w := w' } F ∧ Keeps S { S with w := w' } ∧
      KeepsFresh S { S with w := w' } [] [] ∧ w'.ndof = ndofSum S.o (joints F) ∧
      ∀ pre j post, joints F = pre ++ j :: post → (w'.joint j).dof = some (ndofSum S.o pre, ndofSum S.o pre + S.o.ndof j) := by
  obtain ⟨w', he, hn, ht, hs⟩ := C30_slices hg.tree hl
  have hj := (C54_iter hg.tree hl).2.1
  have he' : Graph.init S.o S.w lim = ((joints F).foldl (numberStep S.o) { S.w with ndof := 0 }, .ok ()) := by
    unfold Graph.init; rw [hj]
  obtain ⟨a1, a2, a3, a4, a5⟩ := numberStep_other S.o (joints F) { S.w with ndof := 0 }
  have ew : w' = (joints F).foldl (numberStep S.o) { S.w with ndof := 0 } := by
    rw [he] at he'; exact (Prod.mk.inj he').1
  rw [← ew] at a1 a2 a3 a4 a5
  refine ⟨w', by unfold Runs Build.init; rw [he], ⟨ht, by rw [show ({ S with w := w' } : RS).w.ground = w'.ground from rfl, a3]; exact hg.ground,
    hg.bodies, fun l hl => good_old (hg.frames l hl), hg.joints, hg.ndof⟩, keeps_world a3 (fun f hf => by rw [a1]; exact hf) (fun f hf => by rw [a2]; exact hf),
    ⟨?_, ?_⟩, hn, hs⟩
  · intro b hb _; rw [FreshBody, a3, a4]; exact hb
  · intro b hb _; rw [FreshJoint, (a5 b).1, (a5 b).2]; exact hb

end ops

end Arboris
