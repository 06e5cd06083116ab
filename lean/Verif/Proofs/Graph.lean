import Verif.Spec.Graph
import Mathlib.Data.List.Perm.Subperm
import Mathlib.Data.List.Nodup

/-! # Proofs about the object graph: the structural invariant and the existence of the tree -/

namespace Arboris
open Graph Spec

/-- a frame is known to the world: bodies always are, subframes when listed -/
def Known (w : World) : FrameRef → Prop
  | .body _ => True
  | .sub f => f ∈ w.subframes

lemma Known.mono {w w' : World} (h : ∀ x ∈ w.subframes, x ∈ w'.subframes) {f : FrameRef} (hf : Known w f) : Known w' f := by
  cases f with
  | body => trivial
  | sub k => exact h k hf

lemma mem_addNew {l : List ℕ} {x y : ℕ} : y ∈ addNew l x ↔ y ∈ l ∨ y = x := by
  unfold addNew
  split_ifs with hx
  · exact ⟨Or.inl, fun h => h.elim id fun e => e ▸ hx⟩
  · simp

lemma registerFrame_subset (w : World) (f : FrameRef) : ∀ x ∈ w.subframes, x ∈ (registerFrame w f).subframes := by
  cases f with
  | body => exact fun _ h => h
  | sub k => exact fun x h => mem_addNew.mpr (Or.inl h)

lemma registerFrame_known (w : World) (f : FrameRef) : Known (registerFrame w f) f := by
  cases f with
  | body => trivial
  | sub k => exact mem_addNew.mpr (Or.inr rfl)

lemma foldl_registerFrame_subset (l : List FrameRef) (w : World) :
    ∀ x ∈ w.subframes, x ∈ (l.foldl registerFrame w).subframes := by
  induction l generalizing w with
  | nil => exact fun _ h => h
  | cons a l ih => exact fun x h => ih _ x (registerFrame_subset w a x h)

/-- Structural invariant kept by every allowed history. -/
structure GInv (o : Objs) (w : World) : Prop where
  kids : ∀ b j, j ∈ (w.body b).children → ∃ f0 f1, (w.joint j).frame0 = some f0 ∧ (w.joint j).frame1 = some f1 ∧
    o.bodyOf f0 = b ∧ (w.body (o.bodyOf f1)).parent = some j
  par : ∀ b j, (w.body b).parent = some j → ∃ f0 f1, (w.joint j).frame0 = some f0 ∧ (w.joint j).frame1 = some f1 ∧
    o.bodyOf f1 = b ∧ j ∈ (w.body (o.bodyOf f0)).children
  nodup : ∀ b, (w.body b).children.Nodup
  fin : ∃ L : List ℕ, ∀ j, (w.joint j).frame0 ≠ none → j ∈ L
  root : (w.body w.ground).parent = none
  known : ∀ b j, j ∈ (w.body b).children → ∀ f, (w.joint j).frame0 = some f ∨ (w.joint j).frame1 = some f → Known w f

section frames
variable (o : Objs) (w : World)

@[simp] lemma registerFrame_body (f : FrameRef) : (registerFrame w f).body = w.body := by cases f <;> rfl
@[simp] lemma registerFrame_joint (f : FrameRef) : (registerFrame w f).joint = w.joint := by cases f <;> rfl
@[simp] lemma registerFrame_ground (f : FrameRef) : (registerFrame w f).ground = w.ground := by cases f <;> rfl
@[simp] lemma setFrames_body (j f0 f1) : (setFrames w j f0 f1).body = w.body := rfl
@[simp] lemma setFrames_ground (j f0 f1) : (setFrames w j f0 f1).ground = w.ground := rfl
@[simp] lemma setParent_joint (b p) : (setParent w b p).joint = w.joint := rfl
@[simp] lemma setParent_ground (b p) : (setParent w b p).ground = w.ground := rfl
@[simp] lemma setChildren_joint (b p) : (setChildren w b p).joint = w.joint := rfl
@[simp] lemma setChildren_ground (b p) : (setChildren w b p).ground = w.ground := rfl

lemma foldl_registerFrame (l : List FrameRef) : (l.foldl registerFrame w).body = w.body ∧
    (l.foldl registerFrame w).joint = w.joint ∧ (l.foldl registerFrame w).ground = w.ground := by
  induction l generalizing w with
  | nil => simp
  | cons a l ih => simp [ih]

@[simp] lemma setParent_children (b p c) : ((setParent w b p).body c).children = (w.body c).children := by
  by_cases h : c = b
  · subst h; simp [setParent]
  · simp [setParent, h]

lemma setParent_parent (b p c) : ((setParent w b p).body c).parent = if c = b then p else (w.body c).parent := by
  by_cases h : c = b
  · subst h; simp [setParent]
  · simp [setParent, h]

@[simp] lemma setChildren_parent (b l c) : ((setChildren w b l).body c).parent = (w.body c).parent := by
  by_cases h : c = b
  · subst h; simp [setChildren]
  · simp [setChildren, h]

lemma setChildren_children (b l c) :
    ((setChildren w b l).body c).children = if c = b then l else (w.body c).children := by
  by_cases h : c = b
  · subst h; simp [setChildren]
  · simp [setChildren, h]

lemma setFrames_frame0 (j f0 f1 k) :
    ((setFrames w j f0 f1).joint k).frame0 = if k = j then f0 else (w.joint k).frame0 := by
  by_cases h : k = j
  · subst h; simp [setFrames]
  · simp [setFrames, h]

lemma setFrames_frame1 (j f0 f1 k) :
    ((setFrames w j f0 f1).joint k).frame1 = if k = j then f1 else (w.joint k).frame1 := by
  by_cases h : k = j
  · subst h; simp [setFrames]
  · simp [setFrames, h]

end frames

/-- the invariant only depends on frames, parents, and children up to order -/
lemma GInv.congr {o : Objs} {w w' : World} (h : GInv o w)
    (h0 : ∀ j, (w'.joint j).frame0 = (w.joint j).frame0) (h1 : ∀ j, (w'.joint j).frame1 = (w.joint j).frame1)
    (hp : ∀ b, (w'.body b).parent = (w.body b).parent)
    (hc : ∀ b, ((w'.body b).children).Perm (w.body b).children) (hg : w'.ground = w.ground)
    (hs : ∀ x ∈ w.subframes, x ∈ w'.subframes) : GInv o w' where
  kids b j hj := by
    obtain ⟨f0, f1, a, b', c, d⟩ := h.kids b j ((hc b).mem_iff.mp hj)
    exact ⟨f0, f1, by rw [h0, a], by rw [h1, b'], c, by rw [hp, d]⟩
  par b j hj := by
    obtain ⟨f0, f1, a, b', c, d⟩ := h.par b j (by rw [← hp, hj])
    exact ⟨f0, f1, by rw [h0, a], by rw [h1, b'], c, (hc _).mem_iff.mpr d⟩
  nodup b := (hc b).nodup_iff.mpr (h.nodup b)
  fin := by
    obtain ⟨L, hL⟩ := h.fin
    exact ⟨L, fun j hj => hL j (by rwa [h0] at hj)⟩
  root := by rw [hg, hp, h.root]
  known b j hj f hf := (h.known b j ((hc b).mem_iff.mp hj) f (by rwa [h0, h1] at hf)).mono hs

lemma GInv.new (o : Objs) (g : ℕ) : GInv o (World.new g) where
  kids b j hj := by simp [World.new] at hj
  par b j hj := by simp [World.new] at hj
  nodup b := by simp [World.new]
  fin := ⟨[], fun j hj => by simp [World.new] at hj⟩
  root := rfl
  known b j hj := by simp [World.new] at hj

/-- setting the frames of an unattached joint is harmless -/
lemma GInv.setFrames {o : Objs} {w : World} (h : GInv o w) {j : ℕ} (h0 : (w.joint j).frame0 = none)
    (f0 f1) : GInv o (setFrames w j f0 f1) where
  kids b k hk := by
    obtain ⟨g0, g1, a, b', c, d⟩ := h.kids b k hk
    have hkj : k ≠ j := by rintro rfl; simp [h0] at a
    exact ⟨g0, g1, by rw [setFrames_frame0, if_neg hkj, a], by rw [setFrames_frame1, if_neg hkj, b'], c, d⟩
  par b k hk := by
    obtain ⟨g0, g1, a, b', c, d⟩ := h.par b k hk
    have hkj : k ≠ j := by rintro rfl; simp [h0] at a
    exact ⟨g0, g1, by rw [setFrames_frame0, if_neg hkj, a], by rw [setFrames_frame1, if_neg hkj, b'], c, d⟩
  nodup := h.nodup
  fin := by
    obtain ⟨L, hL⟩ := h.fin
    refine ⟨j :: L, fun k hk => ?_⟩
    by_cases hkj : k = j
    · simp [hkj]
    · rw [setFrames_frame0, if_neg hkj] at hk
      exact List.mem_cons_of_mem _ (hL k hk)
  root := h.root
  known b k hk f hf := by
    obtain ⟨g0, g1, a, b', c, d⟩ := h.kids b k hk
    have hkj : k ≠ j := by rintro rfl; simp [h0] at a
    rw [setFrames_frame0, setFrames_frame1, if_neg hkj, if_neg hkj] at hf
    exact h.known b k hk f hf

/-- one more link -/
lemma GInv.addLink1 {o : Objs} {w : World} (h : GInv o w) {f0 f1 : FrameRef} {j : ℕ}
    (h0 : (w.joint j).frame0 = none) (hg : o.bodyOf f1 ≠ w.ground) : GInv o (addLink1 o w f0 j f1).1 := by
  unfold Graph.addLink1
  set w1 := Graph.setFrames w j (some f0) (some f1) with hw1
  have H1 : GInv o w1 := h.setFrames h0 _ _
  have e0 : (w1.joint j).frame0 = some f0 := by simp [hw1, Graph.setFrames]
  have e1 : (w1.joint j).frame1 = some f1 := by simp [hw1, Graph.setFrames]
  have hnk : ∀ b, j ∉ (w1.body b).children := fun b hb => by
    obtain ⟨g0, g1, a, _⟩ := h.kids b j hb
    simp [h0] at a
  simp only
  split_ifs with hp
  · set w3 := setChildren (setParent w1 (o.bodyOf f1) (some j)) (o.bodyOf f0)
        (((setParent w1 (o.bodyOf f1) (some j)).body (o.bodyOf f0)).children ++ [j]) with hw3
    constructor
    · intro b k hk
      simp only [registerFrame_body, registerFrame_joint, hw3, setChildren_parent, setParent_parent, setChildren_joint, setParent_joint]
      simp only [registerFrame_body, hw3, setChildren_children, setParent_children] at hk
      by_cases hkj : k = j
      · subst hkj
        have hb : b = o.bodyOf f0 := by
          by_contra hb
          rw [if_neg hb] at hk
          exact hnk _ hk
        exact ⟨f0, f1, e0, e1, hb.symm, by simp⟩
      · have hk' : k ∈ (w1.body b).children := by
          split_ifs at hk with hb
          · simp [hkj] at hk; rwa [hb]
          · exact hk
        obtain ⟨g0, g1, a, b', c, d⟩ := H1.kids b k hk'
        refine ⟨g0, g1, a, b', c, ?_⟩
        rw [if_neg ?_, d]
        intro hh
        rw [hh, hp] at d
        simp at d
    · intro b k hk
      simp only [registerFrame_body, hw3, setChildren_parent, setParent_parent] at hk
      simp only [registerFrame_body, registerFrame_joint, hw3, setChildren_joint, setParent_joint, setChildren_children, setParent_children]
      split_ifs at hk with hb
      · obtain rfl : j = k := by simpa using hk
        exact ⟨f0, f1, e0, e1, hb.symm, by simp⟩
      · obtain ⟨g0, g1, a, b', c, d⟩ := H1.par b k hk
        refine ⟨g0, g1, a, b', c, ?_⟩
        split_ifs with hh
        · rw [hh] at d
          exact List.mem_append_left _ d
        · exact d
    · intro b
      simp only [registerFrame_body, hw3, setChildren_children, setParent_children]
      split_ifs
      · exact List.nodup_append.mpr ⟨H1.nodup _, by simp, fun a ha b hb => by
          simp at hb; subst hb; rintro rfl; exact hnk _ ha⟩
      · exact H1.nodup _
    · simpa [hw3] using H1.fin
    · simp only [registerFrame_body, registerFrame_ground, hw3, setChildren_ground, setParent_ground, setChildren_parent, setParent_parent]
      rw [if_neg (show w1.ground ≠ o.bodyOf f1 from Ne.symm hg)]
      exact H1.root
    · intro b k hk f hf
      simp only [registerFrame_body, hw3, setChildren_children, setParent_children] at hk
      simp only [registerFrame_joint, hw3, setChildren_joint, setParent_joint] at hf
      by_cases hkj : k = j
      · subst hkj
        rw [e0, e1] at hf
        rcases hf with hf | hf <;> simp at hf <;> subst hf
        · exact (registerFrame_known _ _).mono (registerFrame_subset _ _)
        · exact registerFrame_known _ _
      · have hk' : k ∈ (w1.body b).children := by
          split_ifs at hk with hb
          · simp [hkj] at hk; rwa [hb]
          · exact hk
        exact (H1.known b k hk' f hf).mono fun x hx =>
          registerFrame_subset (registerFrame w3 f0) f1 _ (registerFrame_subset w3 f0 _ hx)
  · exact H1

@[simp] lemma addLink1_ground (o : Objs) (w : World) (f0 f1 j) : (addLink1 o w f0 j f1).1.ground = w.ground := by
  unfold Graph.addLink1; simp only; split_ifs <;> simp

/-- case analysis of one call of `add_link` -/
lemma addLink_cases (o : Objs) (w : World) (args : List Arg) :
    (∃ e, addLink o w args = (w, .error e)) ∨
    (∃ f0 j f1 rest, args = .frame f0 :: .joint j :: .frame f1 :: rest ∧ (w.joint j).frame0 = none ∧
      (w.joint j).frame1 = none ∧ rest.length % 3 = 0 ∧
      ((∃ e, (addLink1 o w f0 j f1).2 = .error e ∧ addLink o w args = ((addLink1 o w f0 j f1).1, .error e)) ∨
       ((addLink1 o w f0 j f1).2 = .ok () ∧ rest = [] ∧ addLink o w args = ((addLink1 o w f0 j f1).1, .ok ())) ∨
       ((addLink1 o w f0 j f1).2 = .ok () ∧ rest ≠ [] ∧ addLink o w args = addLink o (addLink1 o w f0 j f1).1 rest))) := by
  match args with
  | [] => left; exact ⟨_, rfl⟩
  | [_] => left; exact ⟨_, rfl⟩
  | [_, _] => left; exact ⟨_, rfl⟩
  | a0 :: aj :: a1 :: rest =>
    match a0, aj, a1 with
    | .frame f0, .joint j, .frame f1 =>
      by_cases hc : (w.joint j).frame0 = none ∧ (w.joint j).frame1 = none ∧ rest.length % 3 = 0
      · right
        refine ⟨f0, j, f1, rest, rfl, hc.1, hc.2.1, hc.2.2, ?_⟩
        rw [Graph.addLink]
        simp only [hc, and_self, if_true]
        rcases hx : Graph.addLink1 o w f0 j f1 with ⟨w', e | ⟨⟩⟩
        · left; exact ⟨e, rfl, rfl⟩
        · right
          by_cases hr : rest = []
          · left; subst hr; exact ⟨rfl, rfl, rfl⟩
          · right
            refine ⟨rfl, hr, ?_⟩
            change (if rest.length > 0 then addLink o w' rest else (w', Except.ok ())) = _
            rw [if_pos (List.length_pos_iff.mpr hr)]
      · left
        refine ⟨.assertion, ?_⟩
        rw [Graph.addLink]
        rw [if_neg hc]
    | .frame _, .joint _, .joint _ => left; exact ⟨_, rfl⟩
    | .frame _, .joint _, .other => left; exact ⟨_, rfl⟩
    | .frame _, .frame _, _ => left; exact ⟨_, rfl⟩
    | .frame _, .other, _ => left; exact ⟨_, rfl⟩
    | .joint _, _, _ => left; exact ⟨_, rfl⟩
    | .other, _, _ => left; exact ⟨_, rfl⟩

/-- induction principle for `add_link`: a property of worlds kept by every attempted single link is kept -/
lemma addLink_induct {o : Objs} {P : World → Prop} (Q : FrameRef → Prop)
    (step : ∀ w f0 j f1, P w → (w.joint j).frame0 = none → (w.joint j).frame1 = none → Q f1 →
      P (addLink1 o w f0 j f1).1) (w : World) (args : List Arg) (hQ : ∀ f, .frame f ∈ frame1s args → Q f)
    (h : P w) : P (addLink o w args).1 := by
  induction hn : args.length using Nat.strong_induction_on generalizing w args with
  | _ n ih =>
    rcases addLink_cases o w args with ⟨e, he⟩ | ⟨f0, j, f1, rest, rfl, h0, h1, hr, hcase⟩
    · rw [he]; exact h
    · have hP := step w f0 j f1 h h0 h1 (hQ f1 (by simp [frame1s]))
      rcases hcase with ⟨e, _, he⟩ | ⟨_, _, he⟩ | ⟨_, _, he⟩
      · rw [he]; exact hP
      · rw [he]; exact hP
      · rw [he]
        subst hn
        exact ih rest.length (by simp; omega) _ rest (fun f hf => hQ f (by simp [frame1s, hf])) hP rfl

lemma addLink_ground (o : Objs) (w : World) (args) : (addLink o w args).1.ground = w.ground :=
  addLink_induct (P := fun w' => w'.ground = w.ground) (fun _ => True)
    (fun w' f0 j f1 h _ _ _ => by simpa using h) w args (fun _ _ => trivial) rfl

lemma GInv.addLink {o : Objs} {w : World} (h : GInv o w) (args : List Arg)
    (hg : ∀ f, .frame f ∈ frame1s args → o.bodyOf f ≠ w.ground) : GInv o (addLink o w args).1 :=
  (addLink_induct (P := fun w' => GInv o w' ∧ w'.ground = w.ground) (fun f => o.bodyOf f ≠ w.ground)
    (fun w' f0 j f1 h h0 _ hQ => ⟨h.1.addLink1 h0 (by rw [h.2]; exact hQ), by simpa using h.2⟩) w args hg ⟨h, rfl⟩).1

lemma register_structure (o : Objs) (w : World) (x : Obj) : (register o w x).1.body = w.body ∧
    (register o w x).1.joint = w.joint ∧ (register o w x).1.ground = w.ground := by
  cases x with
  | frame f => simp [register]
  | joint => simp [register]
  | shape => simp [register]
  | con c =>
    unfold register
    simp only
    split_ifs
    · simp
    · simpa using foldl_registerFrame _ (o.conKids c)
  | ctrl => simp [register]
  | other => simp [register]

lemma register_subset (o : Objs) (w : World) (x : Obj) : ∀ y ∈ w.subframes, y ∈ (register o w x).1.subframes := by
  cases x with
  | frame f => exact registerFrame_subset w f
  | joint => exact fun _ h => h
  | shape s => exact fun y h => registerFrame_subset _ _ y h
  | con c =>
    unfold register
    simp only
    split_ifs
    · exact fun _ h => h
    · exact fun y h => foldl_registerFrame_subset _ _ y h
  | ctrl => exact fun _ h => h
  | other => exact fun _ h => h

lemma GInv.register {o : Objs} {w : World} (h : GInv o w) (x : Obj) : GInv o (register o w x).1 := by
  obtain ⟨a, b, c⟩ := register_structure o w x
  exact h.congr (by simp [b]) (by simp [b]) (by simp [a]) (by simp [a]) c (register_subset o w x)

lemma numbering_structure (o : Objs) (w : World) (js : List ℕ) :
    (js.foldl (numberStep o) w).body = w.body ∧ (js.foldl (numberStep o) w).ground = w.ground ∧
    (∀ j, ((js.foldl (numberStep o) w).joint j).frame0 = (w.joint j).frame0) ∧
    (∀ j, ((js.foldl (numberStep o) w).joint j).frame1 = (w.joint j).frame1) ∧
    (js.foldl (numberStep o) w).subframes = w.subframes := by
  induction js generalizing w with
  | nil => simp
  | cons a l ih =>
    obtain ⟨h1, h2, h3, h4, h5⟩ := ih (numberStep o w a)
    refine ⟨by simpa [numberStep] using h1, by simpa [numberStep] using h2, fun j => ?_, fun j => ?_,
      by simpa [numberStep] using h5⟩
    · rw [List.foldl_cons, h3]
      by_cases hj : j = a
      · subst hj; simp [numberStep]
      · simp [numberStep, hj]
    · rw [List.foldl_cons, h4]
      by_cases hj : j = a
      · subst hj; simp [numberStep]
      · simp [numberStep, hj]

lemma init_structure (o : Objs) (w : World) (lim : ℕ) : (init o w lim).1.body = w.body ∧
    (init o w lim).1.ground = w.ground ∧ (∀ j, ((init o w lim).1.joint j).frame0 = (w.joint j).frame0) ∧
    (∀ j, ((init o w lim).1.joint j).frame1 = (w.joint j).frame1) ∧ (init o w lim).1.subframes = w.subframes := by
  unfold init
  split
  · simp
  · exact numbering_structure o { w with ndof := 0 } _

lemma GInv.init {o : Objs} {w : World} (h : GInv o w) (lim : ℕ) : GInv o (init o w lim).1 := by
  obtain ⟨a, b, c, d, e⟩ := init_structure o w lim
  exact h.congr c d (by simp [a]) (by simp [a]) b (by simp [e])

/-! ## `replace_joint` -/

/-- the world where a stale occurrence of `old` has been removed from the children of `b` -/
def eraseKid (w : World) (b old : ℕ) : World := setChildren w b ((w.body b).children.erase old)

lemma eraseKid_registerFrame (w : World) (b old : ℕ) (f) :
    eraseKid (registerFrame w f) b old = registerFrame (eraseKid w b old) f := by
  cases f <;> rfl

/-- adding a link commutes with removing a stale child -/
lemma addLink1_eraseKid {o : Objs} {w : World} {b old : ℕ} (hold : old ∈ (w.body b).children) (f0 j f1) :
    addLink1 o (eraseKid w b old) f0 j f1 =
      (eraseKid (addLink1 o w f0 j f1).1 b old, (addLink1 o w f0 j f1).2) ∧
    old ∈ ((addLink1 o w f0 j f1).1.body b).children := by
  unfold Graph.addLink1
  have hp : ((setFrames (eraseKid w b old) j (some f0) (some f1)).body (o.bodyOf f1)).parent =
      ((setFrames w j (some f0) (some f1)).body (o.bodyOf f1)).parent := by simp [eraseKid]
  simp only [hp]
  split_ifs with h
  · refine ⟨?_, ?_⟩
    · simp only [eraseKid_registerFrame]
      congr 2
      congr 1
      simp only [setChildren, setParent, setFrames, eraseKid, World.mk.injEq, true_and, and_true]
      funext c
      by_cases c1 : c = o.bodyOf f0 <;> by_cases c2 : c = o.bodyOf f1 <;> by_cases c3 : c = b <;>
        by_cases c4 : o.bodyOf f0 = o.bodyOf f1 <;> by_cases c5 : o.bodyOf f0 = b <;> by_cases c6 : b = o.bodyOf f1 <;>
        simp_all [Function.update_apply, List.erase_append_left]
    · simp only [registerFrame_body, setChildren_children, setParent_children]
      split_ifs with hb
      · subst hb; simpa using Or.inl hold
      · exact hold
  · refine ⟨?_, hold⟩
    rfl

lemma addLink_eraseKid {o : Objs} {w : World} {b old : ℕ} (hold : old ∈ (w.body b).children) (args) :
    addLink o (eraseKid w b old) args = (eraseKid (addLink o w args).1 b old, (addLink o w args).2) ∧
    old ∈ ((addLink o w args).1.body b).children := by
  induction hn : args.length using Nat.strong_induction_on generalizing w args with
  | _ n ih =>
    match args with
    | [] => exact ⟨rfl, hold⟩
    | [_] => exact ⟨rfl, hold⟩
    | [_, _] => exact ⟨rfl, hold⟩
    | a0 :: aj :: a1 :: rest =>
      match a0, aj, a1 with
      | .frame f0, .joint j, .frame f1 =>
        obtain ⟨e, hm⟩ := addLink1_eraseKid (o := o) hold f0 j f1
        rw [Graph.addLink, Graph.addLink]
        have hj : (eraseKid w b old).joint = w.joint := rfl
        rw [hj, e]
        by_cases hc : (w.joint j).frame0 = none ∧ (w.joint j).frame1 = none ∧ rest.length % 3 = 0
        · simp only [if_pos hc]
          rcases hx : Graph.addLink1 o w f0 j f1 with ⟨w', e' | ⟨⟩⟩
          · rw [hx] at hm; exact ⟨rfl, hm⟩
          · rw [hx] at hm
            simp only at hm ⊢
            split_ifs with hr
            · exact ih rest.length (by rw [← hn]; simp; omega) hm rest rfl
            · exact ⟨rfl, hm⟩
        · simp only [if_neg hc]; exact ⟨trivial, hold⟩
      | .frame _, .joint _, .joint _ => exact ⟨rfl, hold⟩
      | .frame _, .joint _, .other => exact ⟨rfl, hold⟩
      | .frame _, .frame _, _ => exact ⟨rfl, hold⟩
      | .frame _, .other, _ => exact ⟨rfl, hold⟩
      | .joint _, _, _ => exact ⟨rfl, hold⟩
      | .other, _, _ => exact ⟨rfl, hold⟩

/-- cutting a joint off -/
lemma GInv.cut {o : Objs} {w : World} (h : GInv o w) {old : ℕ} {g0 g1 : FrameRef}
    (h0 : (w.joint old).frame0 = some g0) (hpar : (w.body (o.bodyOf g1)).parent = some old) :
    GInv o (eraseKid (Graph.setFrames (setParent w (o.bodyOf g1) none) old none none) (o.bodyOf g0) old) := by
  have hmem : ∀ {b j}, j ∈ ((eraseKid (Graph.setFrames (setParent w (o.bodyOf g1) none) old none none)
      (o.bodyOf g0) old).body b).children ↔ j ∈ (w.body b).children ∧ j ≠ old := by
    intro b j
    simp only [eraseKid, setChildren_children, setFrames_body, setParent_children]
    split_ifs with hb
    · subst hb
      rw [(h.nodup _).mem_erase_iff]
      tauto
    · constructor
      · intro hj
        refine ⟨hj, ?_⟩
        rintro rfl
        obtain ⟨f0, f1, a, _, c, _⟩ := h.kids b j hj
        rw [h0] at a
        simp at a
        subst a
        exact hb c.symm
      · exact fun hj => hj.1
  constructor
  · intro b j hj
    obtain ⟨hj, hne⟩ := hmem.mp hj
    obtain ⟨f0, f1, a, b', c, d⟩ := h.kids b j hj
    refine ⟨f0, f1, ?_, ?_, c, ?_⟩
    · simp [eraseKid, setFrames_frame0, hne, a]
    · simp [eraseKid, setFrames_frame1, hne, b']
    · simp only [eraseKid, setChildren_parent, setFrames_body, setParent_parent]
      rw [if_neg ?_, d]
      intro hh
      rw [hh, hpar] at d
      exact hne (by simpa using d.symm)
  · intro b j hj
    simp only [eraseKid, setChildren_parent, setFrames_body, setParent_parent] at hj
    split_ifs at hj with hb
    have hne : j ≠ old := by
      rintro rfl
      obtain ⟨f0, f1, a, b', c, d⟩ := h.par b j hj
      obtain ⟨f0', f1', a', b'', c', d'⟩ := h.par _ j hpar
      rw [b'] at b''
      simp at b''
      subst b''
      exact hb (c.symm.trans c')
    obtain ⟨f0, f1, a, b', c, d⟩ := h.par b j hj
    refine ⟨f0, f1, ?_, ?_, c, hmem.mpr ⟨d, hne⟩⟩
    · simp [eraseKid, setFrames_frame0, hne, a]
    · simp [eraseKid, setFrames_frame1, hne, b']
  · intro b
    simp only [eraseKid, setChildren_children, setFrames_body, setParent_children]
    split_ifs
    · exact (h.nodup _).erase _
    · exact h.nodup _
  · obtain ⟨L, hL⟩ := h.fin
    refine ⟨L, fun j hj => ?_⟩
    by_cases hne : j = old
    · exact hL j (by rw [hne, h0]; simp)
    · exact hL j (by simpa [eraseKid, setFrames_frame0, hne] using hj)
  · simp only [eraseKid, setChildren_parent, setFrames_body, setParent_parent, setChildren_ground, setFrames_ground,
      setParent_ground]
    split_ifs
    · rfl
    · exact h.root
  · intro b j hj f hf
    obtain ⟨hj, hne⟩ := hmem.mp hj
    refine h.known b j hj f ?_
    simpa [eraseKid, setFrames_frame0, setFrames_frame1, hne] using hf

/-- the list surgery of core.py:581-582 removes the stale joint, up to order -/
lemma surgery_perm {l : List ℕ} {old x : ℕ} (ho : old ∈ l.dropLast) (hx : l.getLast? = some x) :
    (l.dropLast.set (l.idxOf old) x).Perm (l.erase old) := by
  obtain ⟨l', rfl⟩ : ∃ l', l = l' ++ [x] := by
    obtain ⟨hne, hl⟩ := List.getLast?_eq_some_iff.mp hx
    exact ⟨hne, hl⟩
  rw [List.dropLast_concat] at ho ⊢
  rw [List.idxOf_append_of_mem ho, List.erase_append_left _ ho]
  clear hx
  induction l' with
  | nil => simp at ho
  | cons a t ih =>
    by_cases ha : a = old
    · subst ha
      simp only [List.idxOf_cons_self, List.set_cons_zero, List.erase_cons_head]
      exact (List.perm_append_singleton x t).symm
    · rw [List.idxOf_cons_ne _ ha, List.set_cons_succ, List.erase_cons_tail (by simpa using ha), List.cons_append]
      exact (ih (by simpa [Ne.symm ha] using ho)).cons a

/-- children are only appended -/
lemma addLink1_prefix (o : Objs) (w : World) (f0 j f1) (b : ℕ) :
    (w.body b).children <+: ((addLink1 o w f0 j f1).1.body b).children := by
  unfold Graph.addLink1
  simp only
  split_ifs
  · simp only [registerFrame_body, setChildren_children, setParent_children, setFrames_body]
    split_ifs with h
    · rw [h]; exact List.prefix_append _ _
    · exact List.prefix_rfl
  · exact List.prefix_rfl

lemma addLink_prefix (o : Objs) (w : World) (args) (b : ℕ) :
    (w.body b).children <+: ((addLink o w args).1.body b).children :=
  addLink_induct (P := fun w' => (w.body b).children <+: (w'.body b).children) (fun _ => True)
    (fun w' f0 j f1 h _ _ _ => h.trans (addLink1_prefix o w' f0 j f1 b)) w args (fun _ _ => trivial) List.prefix_rfl

lemma addLink1_ok {o : Objs} {w : World} {f0 j f1} (h : (addLink1 o w f0 j f1).2 = .ok ()) :
    ((addLink1 o w f0 j f1).1.body (o.bodyOf f0)).children = (w.body (o.bodyOf f0)).children ++ [j] := by
  unfold Graph.addLink1 at h ⊢
  simp only at h ⊢
  split_ifs at h ⊢
  simp [setChildren_children]

lemma addLink_ok_append {o : Objs} {w : World} {f0 args} (h : (addLink o w (.frame f0 :: args)).2 = .ok ()) :
    ∃ j n, ((addLink o w (.frame f0 :: args)).1.body (o.bodyOf f0)).children =
      (w.body (o.bodyOf f0)).children ++ j :: n := by
  rcases addLink_cases o w (.frame f0 :: args) with ⟨e, he⟩ | ⟨f0', j, f1, rest, hargs, h0, h1, hr, hcase⟩
  · rw [he] at h; simp at h
  · simp only [List.cons.injEq, Arg.frame.injEq] at hargs
    obtain ⟨rfl, rfl⟩ := hargs
    rcases hcase with ⟨e, _, he⟩ | ⟨hok, _, he⟩ | ⟨hok, _, he⟩
    · rw [he] at h; simp at h
    · rw [he]; exact ⟨j, [], addLink1_ok hok⟩
    · rw [he]
      obtain ⟨n, hn⟩ := addLink_prefix o (addLink1 o w f0 j f1).1 rest (o.bodyOf f0)
      exact ⟨j, n, by rw [← hn, addLink1_ok hok]; simp⟩

lemma GInv.replaceChain {o : Objs} {w : World} (h : GInv o w) {lim old : ℕ} {f0 f1 : FrameRef} {args : List Arg}
    (hkid : ∀ g0, (w.joint old).frame0 = some g0 → old ∈ (w.body (o.bodyOf g0)).children)
    (hpar : ∀ g1, (w.joint old).frame1 = some g1 → (w.body (o.bodyOf g1)).parent = some old)
    (hg : ∀ f, .frame f ∈ frame1s (.frame f0 :: args) → o.bodyOf f ≠ w.ground)
    (hok : (replaceChain o w lim old f0 f1 (.frame f0 :: args)).2 = .ok ()) :
    GInv o (replaceChain o w lim old f0 f1 (.frame f0 :: args)).1 := by
  unfold Graph.replaceChain at hok ⊢
  rcases h0 : (w.joint old).frame0 with _ | g0 <;> rcases h1 : (w.joint old).frame1 with _ | g1 <;>
    simp only [h0, h1] at hok ⊢
  · exact h
  · exact h
  · exact h
  split_ifs at hok ⊢ with hb
  · set w1 := Graph.setFrames (setParent w (o.bodyOf f1) none) old none none with hw1
    have hk : old ∈ (w1.body (o.bodyOf f0)).children := by
      simp only [hw1, setFrames_body, setParent_children, ← hb.1]
      exact hkid g0 h0
    have hcut : GInv o (eraseKid w1 (o.bodyOf f0) old) := by
      rw [hw1, ← hb.1, ← hb.2]
      exact h.cut h0 (hpar g1 h1)
    have hE := addLink_eraseKid (o := o) hk (.frame f0 :: args)
    have hI := hcut.addLink (.frame f0 :: args) hg
    rw [hE.1] at hI
    rcases hx : Graph.addLink o w1 (.frame f0 :: args) with ⟨w2, e | ⟨⟩⟩
    · rw [hx] at hok; simp at hok
    · simp only [hx] at hok hI ⊢
      obtain ⟨j, n, hjn⟩ := addLink_ok_append (o := o) (w := w1) (f0 := f0) (args := args) (by rw [hx])
      rw [hx] at hjn
      simp only at hjn
      rcases hl : (w2.body (o.bodyOf f0)).children.getLast? with _ | x
      · simp [hl] at hok
      · simp only
        apply GInv.init
        have hmem : old ∈ (w2.body (o.bodyOf f0)).children.dropLast := by
          rw [hjn, List.dropLast_append_of_ne_nil (by simp)]
          exact List.mem_append_left _ hk
        refine hI.congr (fun _ => rfl) (fun _ => rfl) (fun b => by simp [eraseKid]) (fun b => ?_) rfl (fun _ h => h)
        simp only [setChildren_children, eraseKid]
        split_ifs with hbb
        · exact surgery_perm hmem hl
        · exact List.Perm.refl _

lemma replaceGuard_ok {o : Objs} {w : World} {old : ℕ} {g0 g1} (h : replaceGuard o w old = .ok (g0, g1)) :
    (w.joint old).frame0 = some g0 ∧ (w.joint old).frame1 = some g1 ∧ old ∈ (w.body (o.bodyOf g0)).children ∧
    (w.body (o.bodyOf g1)).parent = some old := by
  unfold replaceGuard at h
  rcases h0 : (w.joint old).frame0 with _ | g0' <;> rcases h1 : (w.joint old).frame1 with _ | g1' <;>
    simp only [h0, h1] at h
  · simp at h
  · simp at h
  · split_ifs at h
  · split_ifs at h with a b
    simp only [Except.ok.injEq, Prod.mk.injEq] at h
    obtain ⟨rfl, rfl⟩ := h
    exact ⟨rfl, rfl, a, b⟩

lemma GInv.replaceJoint {o : Objs} {w : World} (h : GInv o w) {lim old : ℕ} {args : List Arg}
    (hg : ∀ f, .frame f ∈ frame1s args → o.bodyOf f ≠ w.ground)
    (hok : (replaceJoint o w lim old args).2 = .ok ()) : GInv o (replaceJoint o w lim old args).1 := by
  unfold Graph.replaceJoint at hok ⊢
  rcases hG : replaceGuard o w old with e | ⟨g0, g1⟩
  · exact h
  · obtain ⟨h0, h1, hk, hp⟩ := replaceGuard_ok hG
    have hkid : ∀ g0, (w.joint old).frame0 = some g0 → old ∈ (w.body (o.bodyOf g0)).children := by
      intro g hg'; rw [h0] at hg'; simp at hg'; subst hg'; exact hk
    have hpar : ∀ g1, (w.joint old).frame1 = some g1 → (w.body (o.bodyOf g1)).parent = some old := by
      intro g hg'; rw [h1] at hg'; simp at hg'; subst hg'; exact hp
    simp only [hG] at hok ⊢
    match args with
    | [] => exact h
    | [x] =>
      refine h.replaceChain hkid hpar ?_ hok
      intro f hf
      simp [frame1s] at hf
      subst hf
      intro hh
      rw [hh, h.root] at hp
      simp at hp
    | a :: b :: l =>
      simp only at hok ⊢
      split_ifs at hok ⊢ with h3
      rcases a with f0 | _ | _ <;> rcases hl : (b :: l).getLast? with _ | (f1 | _ | _) <;>
        simp only [List.head?_cons, List.getLast?_cons_cons, hl] at hok ⊢ <;> first | exact h | skip
      exact h.replaceChain hkid hpar hg hok

/-! ## The tree -/

/-- `RPath w p c`: following the joints of `p` (last first) from the ground leads to body `c` -/
inductive RPath (o : Objs) (w : World) : List ℕ → ℕ → Prop
  | root : RPath o w [] w.ground
  | step {p b j f} (hp : RPath o w p b) (hj : j ∈ (w.body b).children) (hf : (w.joint j).frame1 = some f) :
      RPath o w (j :: p) (o.bodyOf f)

lemma RPath.nil_inv {o : Objs} {w : World} {c} (h : RPath o w [] c) : c = w.ground := by cases h; rfl

lemma RPath.cons_inv {o : Objs} {w : World} {j p c} (h : RPath o w (j :: p) c) :
    ∃ b f, RPath o w p b ∧ j ∈ (w.body b).children ∧ (w.joint j).frame1 = some f ∧ c = o.bodyOf f := by
  cases h with
  | step hp hj hf => exact ⟨_, _, hp, hj, hf, rfl⟩

lemma RPath.parent {o : Objs} {w : World} (h : GInv o w) {j p c} (hp : RPath o w (j :: p) c) :
    (w.body c).parent = some j := by
  obtain ⟨b, f, hp, hj, hf, rfl⟩ := hp.cons_inv
  obtain ⟨f0, f1, a, b, c, d⟩ := h.kids _ j hj
  rw [hf] at b
  simp at b
  rw [b, d]

lemma RPath.unique {o : Objs} {w : World} (h : GInv o w) {p q c} (hp : RPath o w p c) (hq : RPath o w q c) : p = q := by
  induction p generalizing q c with
  | nil =>
    cases q with
    | nil => rfl
    | cons j q =>
      have := hq.parent h
      rw [hp.nil_inv, h.root] at this
      simp at this
  | cons j p ih =>
    have hpar := hp.parent h
    cases q with
    | nil =>
      rw [hq.nil_inv, h.root] at hpar
      simp at hpar
    | cons j' q =>
      have := hq.parent h
      rw [hpar] at this
      obtain rfl : j = j' := by simpa using this
      obtain ⟨b, f, hp', hj, hf, _⟩ := hp.cons_inv
      obtain ⟨b', f', hq', hj', hf', _⟩ := hq.cons_inv
      obtain ⟨f0, f1, a, _, e, _⟩ := h.kids _ _ hj
      obtain ⟨f0', f1', a', _, e', _⟩ := h.kids _ _ hj'
      rw [a] at a'
      obtain rfl : f0 = f0' := by simpa using a'
      rw [← e'] at hq'
      rw [← e] at hp'
      rw [ih hp' hq']

lemma RPath.mem {o : Objs} {w : World} {p c j} (hp : RPath o w p c) (hj : j ∈ p) :
    ∃ q c', (j :: q) <:+ p ∧ RPath o w (j :: q) c' := by
  induction p generalizing c with
  | nil => simp at hj
  | cons k p ih =>
    by_cases hk : j = k
    · subst hk; exact ⟨p, c, List.suffix_rfl, hp⟩
    · obtain ⟨b, f, hp', _⟩ := hp.cons_inv
      obtain ⟨q, c', hs, hr⟩ := ih hp' (by simpa [hk] using hj)
      exact ⟨q, c', hs.trans (List.suffix_cons _ _), hr⟩

lemma RPath.nodup {o : Objs} {w : World} (h : GInv o w) {p c} (hp : RPath o w p c) : p.Nodup := by
  induction p generalizing c with
  | nil => simp
  | cons j p ih =>
    obtain ⟨b, f, hp', hj, hf, rfl⟩ := hp.cons_inv
    refine List.nodup_cons.mpr ⟨fun hmem => ?_, ih hp'⟩
    obtain ⟨q, c', hs, hr⟩ := hp'.mem hmem
    obtain ⟨b', f', _, _, hf', rfl⟩ := hr.cons_inv
    rw [hf] at hf'
    obtain rfl : f = f' := by simpa using hf'
    have := hr.unique h hp
    have hl := hs.length_le
    rw [this] at hl
    simp at hl
    
lemma RPath.linked {o : Objs} {w : World} (h : GInv o w) {p c j} (hp : RPath o w p c) (hj : j ∈ p) :
    (w.joint j).frame0 ≠ none := by
  obtain ⟨q, c', _, hr⟩ := hp.mem hj
  obtain ⟨b, f, _, hj', _⟩ := hr.cons_inv
  obtain ⟨f0, f1, a, _⟩ := h.kids _ _ hj'
  rw [a]; simp

lemma GInv.exists_unfold {o : Objs} {w : World} (h : GInv o w) {L : List ℕ}
    (hL : ∀ j, (w.joint j).frame0 ≠ none → j ∈ L) (n : ℕ) (p : List ℕ) (b : ℕ) (hp : RPath o w p b)
    (hn : L.length ≤ p.length + n) : ∃ F, Unfolds o w b (w.body b).children F := by
  induction n generalizing p b with
  | zero =>
    suffices hh : (w.body b).children = [] by rw [hh]; exact ⟨_, .nil b⟩
    by_contra hne
    obtain ⟨j, hj⟩ := List.exists_mem_of_ne_nil _ hne
    obtain ⟨f0, f1, a, b', c, d⟩ := h.kids _ _ hj
    have hp2 := RPath.step hp hj b'
    have := (List.subperm_of_subset (hp2.nodup h) (fun k hk => hL k (hp2.linked h hk))).length_le
    simp at this
    omega
  | succ n ih =>
    have key : ∀ js, (∀ j ∈ js, j ∈ (w.body b).children) → ∃ F, Unfolds o w b js F := by
      intro js
      induction js with
      | nil => exact fun _ => ⟨_, .nil b⟩
      | cons j js ihj =>
        intro hsub
        obtain ⟨sib, hs⟩ := ihj (fun k hk => hsub k (List.mem_cons_of_mem _ hk))
        obtain ⟨f0, f1, a, b', c, d⟩ := h.kids _ _ (hsub j List.mem_cons_self)
        obtain ⟨ch, hch⟩ := ih (j :: p) _ (RPath.step hp (hsub j List.mem_cons_self) b') (by simp; omega)
        exact ⟨_, .cons a b' c d hch hs⟩
    exact key _ fun _ h => h

/-- bodies of the unfolding have distinct paths -/
lemma Unfolds.nodup {o : Objs} {w : World} (h : GInv o w) {b js F} (hu : Unfolds o w b js F) {p : List ℕ}
    (hp : RPath o w p b) (hsub : ∀ j ∈ js, j ∈ (w.body b).children) (hn : js.Nodup) :
    F.bodies.Nodup ∧ (joints F).Nodup ∧
    (∀ c ∈ F.bodies, ∃ j ∈ js, ∃ q, RPath o w (q ++ j :: p) c) ∧
    (∀ k ∈ joints F, ∃ j ∈ js, ∃ q c, RPath o w (k :: q) c ∧ (j :: p) <:+ k :: q) := by
  induction hu generalizing p with
  | nil => simp [Forest.bodies, joints, Forest.links]
  | @cons b j js f0 f1 ch sib h0 h1 hb hpar hch hsib ihc ihs =>
    have hj := hsub j List.mem_cons_self
    have hp2 := RPath.step hp hj h1
    obtain ⟨c1, c2, c3, c4⟩ := ihc hp2 (fun _ h => h) (h.nodup _)
    obtain ⟨s1, s2, s3, s4⟩ := ihs hp (fun k hk => hsub k (List.mem_cons_of_mem _ hk)) (List.nodup_cons.mp hn).2
    have hjs := (List.nodup_cons.mp hn).1
    have sx : ∀ {j1 j2 : ℕ} {q1 q2 : List ℕ}, q1 ++ j1 :: p = q2 ++ j2 :: p → j1 = j2 := by
      intro j1 j2 q1 q2 hh
      have := congrArg List.reverse hh
      simp only [List.reverse_append, List.reverse_cons, List.append_assoc] at this
      have := List.append_cancel_left this
      simp at this
      exact this.1
    -- paths
    have P1 : ∀ c ∈ ch.bodies, ∃ q, RPath o w (q ++ j :: p) c := by
      intro c hc
      obtain ⟨j', _, q, hq⟩ := c3 c hc
      exact ⟨q ++ [j'], by simpa using hq⟩
    have hself : o.bodyOf f1 ∉ ch.bodies := by
      intro hm
      obtain ⟨j', _, q, hq⟩ := c3 _ hm
      have := congrArg List.length (hq.unique h hp2)
      simp at this
      omega
    have hself' : o.bodyOf f1 ∉ sib.bodies := by
      intro hm
      obtain ⟨j', hj', q, hq⟩ := s3 _ hm
      have : j' = j := sx (q2 := []) (hq.unique h hp2)
      exact hjs (this ▸ hj')
    have hdis : ∀ c ∈ ch.bodies, c ∉ sib.bodies := by
      intro c hc hs
      obtain ⟨q, hq⟩ := P1 c hc
      obtain ⟨j', hj', q', hq'⟩ := s3 _ hs
      exact hjs (sx (hq'.unique h hq) ▸ hj')
    -- joints: a joint determines its child body
    have det : ∀ {k q1 q2 c1 c2}, RPath o w (k :: q1) c1 → RPath o w (k :: q2) c2 → q1 = q2 := by
      intro k q1 q2 c1 c2 r1 r2
      obtain ⟨_, f, _, _, hf, e⟩ := r1.cons_inv
      obtain ⟨_, f', _, _, hf', e'⟩ := r2.cons_inv
      rw [hf] at hf'
      obtain rfl : f = f' := by simpa using hf'
      rw [← e] at e'
      rw [e'] at r2
      simpa using r1.unique h r2
    have sfx : ∀ {j1 j2 : ℕ} {q : List ℕ}, (j1 :: p) <:+ q → (j2 :: p) <:+ q → j1 = j2 := by
      intro j1 j2 q h1 h2
      obtain ⟨a1, e1⟩ := h1
      obtain ⟨a2, e2⟩ := h2
      exact sx (e1.trans e2.symm)
    have hjself : j ∉ joints ch := by
      intro hm
      obtain ⟨j', _, q, c, hq, hs⟩ := c4 _ hm
      have := det hq hp2
      subst this
      have := hs.length_le
      simp at this
    have hjself' : j ∉ joints sib := by
      intro hm
      obtain ⟨j', hj', q, c, hq, hs⟩ := s4 _ hm
      have := det hq hp2
      subst this
      exact hjs (sfx hs (List.suffix_rfl) ▸ hj')
    have hjdis : ∀ k ∈ joints ch, k ∉ joints sib := by
      intro k hk hs
      obtain ⟨j1, _, q, c, hq, e1⟩ := c4 _ hk
      obtain ⟨j2, hj2, q', c', hq', e2⟩ := s4 _ hs
      have := det hq hq'
      subst this
      exact hjs (sfx e2 ((List.suffix_cons _ _).trans e1) ▸ hj2)
    refine ⟨?_, ?_, ?_, ?_⟩
    · simp only [Forest.bodies, List.cons_append]
      refine List.nodup_cons.mpr ⟨by simp [hself, hself'], List.nodup_append.mpr ⟨c1, s1, ?_⟩⟩
      rintro a ha b' hb' rfl
      exact hdis a ha hb'
    · simp only [joints, Forest.links, List.map_cons, List.map_append, List.cons_append] at *
      refine List.nodup_cons.mpr ⟨?_, List.nodup_append.mpr ⟨c2, s2, ?_⟩⟩
      · rw [List.mem_append]; tauto
      · rintro a ha b' hb' rfl
        exact hjdis a ha hb'
    · intro c hc
      simp only [Forest.bodies, List.cons_append, List.mem_cons, List.mem_append] at hc
      rcases hc with rfl | hc | hc
      · exact ⟨j, List.mem_cons_self, [], hp2⟩
      · obtain ⟨q, hq⟩ := P1 c hc
        exact ⟨j, List.mem_cons_self, q, hq⟩
      · obtain ⟨j', hj', q, hq⟩ := s3 c hc
        exact ⟨j', List.mem_cons_of_mem _ hj', q, hq⟩
    · intro k hk
      simp only [joints, Forest.links, List.map_cons, List.map_append, List.cons_append, List.mem_cons,
        List.mem_append] at hk
      rcases hk with rfl | hk | hk
      · exact ⟨k, List.mem_cons_self, p, _, hp2, List.suffix_rfl⟩
      · obtain ⟨j', _, q, c, hq, e⟩ := c4 k hk
        exact ⟨j, List.mem_cons_self, q, c, hq, (List.suffix_cons _ _).trans e⟩
      · obtain ⟨j', hj', q, c, hq, e⟩ := s4 k hk
        exact ⟨j', List.mem_cons_of_mem _ hj', q, c, hq, e⟩

/-- the invariant makes the world a tree -/
theorem GInv.isTree {o : Objs} {w : World} (h : GInv o w) : ∃ F, IsTree o w F := by
  obtain ⟨L, hL⟩ := h.fin
  obtain ⟨F, hF⟩ := h.exists_unfold hL L.length [] _ .root (by simp)
  obtain ⟨h1, h2, h3, _⟩ := Unfolds.nodup h hF .root (fun _ h => h) (h.nodup _)
  refine ⟨F, hF, h.root, List.nodup_cons.mpr ⟨fun hm => ?_, h1⟩, h2⟩
  obtain ⟨j, _, q, hq⟩ := h3 _ hm
  have := congrArg List.length (hq.unique h .root)
  simp at this

end Arboris
