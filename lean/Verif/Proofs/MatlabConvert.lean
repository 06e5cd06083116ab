import Verif.Props.ReplaceChain
import Verif.Proofs.Build
import Verif.Model.MatlabConvert

/-!
# Lemmas about `MatlabConverter`
-/

namespace Arboris
open Graph Spec Build Matlab

/-! ### what `replace_joint` leaves alone -/

/-- registered things are kept -/
structure RegKept (w w' : World) : Prop where
  shapes : w'.shapes = w.shapes
  constraints : w'.constraints = w.constraints
  controllers : w'.controllers = w.controllers
  subframes : ∀ f ∈ w.subframes, f ∈ w'.subframes

lemma RegKept.refl (w : World) : RegKept w w := ⟨rfl, rfl, rfl, fun _ h => h⟩

lemma RegKept.trans {w w' w'' : World} (h : RegKept w w') (h' : RegKept w' w'') : RegKept w w'' :=
  ⟨h'.shapes.trans h.shapes, h'.constraints.trans h.constraints, h'.controllers.trans h.controllers,
    fun f hf => h'.subframes f (h.subframes f hf)⟩

lemma regKept_registerFrame (w : World) (f : FrameRef) : RegKept w (registerFrame w f) := by
  cases f with
  | body b => exact .refl _
  | sub f =>
    refine ⟨rfl, rfl, rfl, fun g hg => ?_⟩
    simp only [registerFrame, addNew]
    split_ifs <;> simp [hg]

lemma regKept_addLink1 (o : Objs) (w : World) (f0 : FrameRef) (j : ℕ) (f1 : FrameRef) : RegKept w (addLink1 o w f0 j f1).1 := by
  unfold addLink1
  simp only
  split_ifs
  · refine RegKept.trans ?_ (regKept_registerFrame _ f1)
    refine RegKept.trans ?_ (regKept_registerFrame _ f0)
    exact ⟨rfl, rfl, rfl, fun _ h => h⟩
  · exact ⟨rfl, rfl, rfl, fun _ h => h⟩

lemma regKept_addLink (o : Objs) : ∀ (n : ℕ) (args : List Arg), args.length ≤ n → ∀ w : World, RegKept w (addLink o w args).1
  | 0, args, h, w => by
    have : args = [] := List.length_eq_zero_iff.mp (by omega)
    subst this
    unfold Graph.addLink
    exact .refl _
  | n + 1, args, h, w => by
    unfold Graph.addLink
    split
    · rename_i a0 aj a1 rest
      split
      · rename_i f0 j f1
        by_cases hc : (w.joint j).frame0 = none ∧ (w.joint j).frame1 = none ∧ rest.length % 3 = 0
        · rw [if_pos hc]
          have h1 := regKept_addLink1 o w f0 j f1
          rcases hq : addLink1 o w f0 j f1 with ⟨w', e | u⟩
          · rw [hq] at h1; exact h1
          · rw [hq] at h1
            simp only
            by_cases hr : rest.length > 0
            · rw [if_pos hr]
              refine h1.trans (regKept_addLink o n rest ?_ w')
              simp at h
              omega
            · rw [if_neg hr]; exact h1
        · rw [if_neg hc]; exact .refl _
      · exact .refl _
    · exact .refl _

lemma regKept_number (o : Objs) (js : List ℕ) (w : World) : RegKept w (js.foldl (numberStep o) w) := by
  induction js generalizing w with
  | nil => exact .refl _
  | cons j js ih => exact (show RegKept w (numberStep o w j) from ⟨rfl, rfl, rfl, fun _ h => h⟩).trans (ih _)

lemma regKept_init (o : Objs) (w : World) (lim : ℕ) : RegKept w (Graph.init o w lim).1 := by
  unfold Graph.init
  split
  · exact .refl _
  · exact (show RegKept w { w with ndof := 0 } from ⟨rfl, rfl, rfl, fun _ h => h⟩).trans (regKept_number _ _ _)

lemma regKept_replaceChain (o : Objs) (w : World) (lim old : ℕ) (f0 f1 : FrameRef) (args : List Arg) :
    RegKept w (replaceChain o w lim old f0 f1 args).1 := by
  unfold replaceChain
  split
  · split_ifs
    · have h := regKept_addLink o _ args le_rfl (setFrames (setParent w (o.bodyOf f1) none) old none none)
      have h0 : RegKept w (setFrames (setParent w (o.bodyOf f1) none) old none none) := ⟨rfl, rfl, rfl, fun _ h => h⟩
      simp only
      rcases hq : Graph.addLink o (setFrames (setParent w (o.bodyOf f1) none) old none none) args with ⟨w2, e | u⟩
      · rw [hq] at h; exact h0.trans h
      · rw [hq] at h
        simp only
        split
        · exact h0.trans h
        · refine (h0.trans h).trans (RegKept.trans ?_ (regKept_init _ _ _))
          exact ⟨rfl, rfl, rfl, fun _ h => h⟩
    · exact .refl _
  · exact .refl _

lemma regKept_replaceJoint (o : Objs) (w : World) (lim old : ℕ) (args : List Arg) : RegKept w (replaceJoint o w lim old args).1 := by
  unfold replaceJoint
  split
  · exact .refl _
  · split
    · exact .refl _
    · exact regKept_replaceChain ..
    · split_ifs
      · exact .refl _
      · split
        · exact regKept_replaceChain ..
        · exact .refl _

/-! ### programs that leave the registries alone -/

/-- the same shapes, constraints and controllers, on the same frames -/
structure Same (S S' : RS) : Prop where
  shapes : S'.w.shapes = S.w.shapes
  constraints : S'.w.constraints = S.w.constraints
  controllers : S'.w.controllers = S.w.controllers
  subBody : S'.o.subBody = S.o.subBody
  shapeFrame : S'.o.shapeFrame = S.o.shapeFrame
  conKids : S'.o.conKids = S.o.conKids

lemma Same.refl (S : RS) : Same S S := ⟨rfl, rfl, rfl, rfl, rfl, rfl⟩

lemma Same.trans {S S' S'' : RS} (h : Same S S') (h' : Same S' S'') : Same S S'' :=
  ⟨h'.1.trans h.1, h'.2.trans h.2, h'.3.trans h.3, h'.4.trans h.4, h'.5.trans h.5, h'.6.trans h.6⟩

lemma Same.bodyOf {S S' : RS} (h : Same S S') (f : FrameRef) : S'.o.bodyOf f = S.o.bodyOf f := by
  cases f <;> simp [Objs.bodyOf, h.subBody]

/-- the program leaves the registries alone -/
def SameP {α : Type} (p : Prog α) : Prop := ∀ S a S', Runs p S a S' → Same S S'

lemma SameP.bind {α β : Type} {p : Prog α} {q : α → Prog β} (hp : SameP p) (hq : ∀ a, SameP (q a)) : SameP (p >>= q) := by
  intro S a S' h
  have h : (match p S with | .ok (x, S1) => q x S1 | .error e => .error e) = .ok (a, S') := by
    rw [← h]
    change _ = (p S >>= fun x => q x.1 x.2)
    cases p S <;> rfl
  rcases e : p S with er | ⟨x, S1⟩
  · rw [e] at h; cases h
  · rw [e] at h
    exact (hp S x S1 e).trans (hq x S1 a S' h)

lemma SameP.pure {α : Type} (a : α) : SameP (Pure.pure a : Prog α) := by
  intro S b S' h
  cases h
  exact .refl _

lemma SameP.fail {α : Type} (e : PyErr) : SameP (Build.fail e : Prog α) := by
  intro S b S' h
  cases h

lemma SameP.look : SameP Matlab.look := by
  intro S b S' h
  cases h
  exact .refl _

lemma SameP.check (p : Prop) : SameP (Build.check p) := by
  intro S b S' h
  unfold Runs Build.check at h
  split_ifs at h
  cases h
  exact .refl _

lemma SameP.newBody (n : Option String) (m : Option Mat6) : SameP (Build.newBody n m) := by
  intro S b S' h
  unfold Runs Build.newBody at h
  simp only at h
  split_ifs at h
  cases h
  exact ⟨rfl, rfl, rfl, rfl, rfl, rfl⟩

lemma SameP.newJoint (a : JAttr) (n : Option String) : SameP (Build.newJoint a n) := by
  intro S b S' h
  cases h
  exact ⟨rfl, rfl, rfl, rfl, rfl, rfl⟩

lemma SameP.replaceP (lim old : ℕ) (args : List Arg) : SameP (Matlab.replaceP lim old args) := by
  intro S b S' h
  have hk := regKept_replaceJoint S.o S.w lim old args
  unfold Runs Matlab.replaceP at h
  split at h
  · rename_i w hw
    cases h
    rw [hw] at hk
    exact ⟨hk.shapes, hk.constraints, hk.controllers, rfl, rfl, rfl⟩
  · cases h

lemma SameP.convertJoint (c : Conf) (lim j : ℕ) : SameP (Matlab.convertJoint c lim j) := by
  unfold Matlab.convertJoint
  refine .bind .look fun S => ?_
  split
  · refine .bind (.check _) fun _ => ?_
    split
    · exact .bind (.newJoint _ _) fun _ => .bind (.newBody _ _) fun _ => .bind (.newJoint _ _) fun _ =>
        .bind (.newBody _ _) fun _ => .bind (.newJoint _ _) fun _ => .replaceP _ _ _
    · exact .bind (.newJoint _ _) fun _ => .bind (.newBody _ _) fun _ => .bind (.newJoint _ _) fun _ => .replaceP _ _ _
    · exact .bind (.newJoint _ _) fun _ => .bind (.newBody _ _) fun _ => .bind (.newJoint _ _) fun _ => .replaceP _ _ _
    · exact .bind (.newJoint _ _) fun _ => .bind (.newBody _ _) fun _ => .bind (.newJoint _ _) fun _ => .replaceP _ _ _
    · exact .pure _
  · exact .fail _

lemma SameP.forM {α : Type} {f : α → Prog Unit} (hf : ∀ a, SameP (f a)) (l : List α) : SameP (l.forM f) := by
  induction l with
  | nil => exact .pure _
  | cons a l ih => exact .bind (hf a) fun _ => ih

lemma SameP.traverseConv (c : Conf) (lim : ℕ) : ∀ k b, SameP (Matlab.traverseConv c lim k b)
  | 0, _ => .fail _
  | k + 1, b => by
    unfold Matlab.traverseConv
    refine .bind .look fun S => .bind (.forM (fun i => ?_) _) fun _ => .bind .look fun _ => .check _
    refine .bind .look fun S => ?_
    split
    · exact .pure _
    · split
      · exact .fail _
      · exact .bind (.convertJoint _ _ _) fun _ => traverseConv c lim k _

/-! ### `replace_joint` on a world under construction -/

lemma mem_replaceBy {o : Objs} {old : ℕ} {L : List (FrameRef × ℕ × FrameRef)} (hL : L ≠ []) {F : Forest (FrameRef × ℕ × FrameRef) ℕ}
    {x : FrameRef × ℕ × FrameRef} (h : x ∈ (replaceBy o old L F).links) : x ∈ L ∨ (x ∈ F.links ∧ x.2.1 ≠ old) := by
  rw [replaceBy_links o old hL, List.mem_flatMap] at h
  obtain ⟨y, hy, hx⟩ := h
  split_ifs at hx with e
  · exact .inl hx
  · simp only [List.mem_singleton] at hx
    subst hx
    exact .inr ⟨hy, e⟩

lemma replaceP_runs {S : RS} {F : Forest (FrameRef × ℕ × FrameRef) ℕ} (hg : Good S F) {lim : ℕ} {l : FrameRef × ℕ × FrameRef} (hl : l ∈ F.links)
    {L : List (FrameRef × ℕ × FrameRef)} (hlim : depth F + L.length ≤ lim)
    (hL : IsChain S.o S.w F l.2.1 (S.o.bodyOf l.1) (S.o.bodyOf l.2.2) L)
    (hf : ∀ x ∈ L, Old S x.1 ∧ Old S x.2.2) (hb : ∀ x ∈ L, S.o.bodyOf x.2.2 < S.nb)
    (hj : ∀ x ∈ L, x.2.1 < S.nj ∧ S.o.ndof x.2.1 = (S.jattr x.2.1).ndof) :
    ∃ w', Runs (replaceP lim l.2.1 (linkArgs L)) S () { S with w := w' } ∧ Good { S with w := w' } (replaceBy S.o l.2.1 L F) ∧
      Keeps S { S with w := w' } := by
  have hu := unfolds_ends hg.tree.unfolds hl
  obtain ⟨w', h1, h2, -, -, -, hgr⟩ := C98_reuse hg.tree hlim (List.mem_map.mpr ⟨l, hl, rfl⟩) hu.1 hu.2.1 hL
  have hk := regKept_replaceJoint S.o S.w lim l.2.1 (linkArgs L)
  rw [h1] at hk
  refine ⟨w', by unfold Runs replaceP; rw [h1], ?_, ?_⟩
  · have hm : ∀ x ∈ (replaceBy S.o l.2.1 L F).links, x ∈ L ∨ x ∈ F.links := fun x hx => (mem_replaceBy hL.ne hx).imp_right And.left
    refine ⟨h2, by rw [show ({ S with w := w' } : RS).w.ground = S.w.ground from hgr]; exact hg.ground, ?_, ?_, ?_, ?_⟩
    · intro b hb'
      have := unfolds_bodies h2.unfolds
      change b ∈ (replaceBy S.o l.2.1 L F).bodies at hb'
      rw [this] at hb'
      obtain ⟨x, hx, rfl⟩ := List.mem_map.mp hb'
      rcases hm x hx with h | h
      · exact hb x h
      · exact hg.bodies _ (unfolds_ends hg.tree.unfolds h).2.2.2
    · intro x hx
      rcases hm x hx with h | h
      · exact hf x h
      · exact hg.frames x h
    · intro j hj'
      obtain ⟨x, hx, rfl⟩ := List.mem_map.mp hj'
      rcases hm x hx with h | h
      · exact (hj x h).1
      · exact hg.joints _ (List.mem_map.mpr ⟨x, h, rfl⟩)
    · intro j hj'
      obtain ⟨x, hx, rfl⟩ := List.mem_map.mp hj'
      rcases hm x hx with h | h
      · exact (hj x h).2
      · exact hg.ndof _ (List.mem_map.mpr ⟨x, h, rfl⟩)
  · exact keeps_world hgr hk.subframes (by intro s hs; rw [hk.shapes]; exact hs)

end Arboris
