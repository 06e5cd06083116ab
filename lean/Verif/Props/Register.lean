import Verif.Proofs.GraphIter

/-!
# C58: `World.register`
-/

namespace Arboris
open Graph Spec

lemma addNew_nodup {l : List ℕ} (h : l.Nodup) (x : ℕ) : (addNew l x).Nodup := by
  unfold addNew
  split_ifs with hx
  · exact h
  · exact List.nodup_append.mpr ⟨h, by simp, fun a ha b hb => by simp at hb; subst hb; rintro rfl; exact hx ha⟩

lemma addNew_prefix (l : List ℕ) (x : ℕ) : l <+: addNew l x := by
  unfold addNew
  split_ifs
  · exact List.prefix_rfl
  · exact List.prefix_append _ _

@[simp] lemma addNew_addNew (l : List ℕ) (x : ℕ) : addNew (addNew l x) x = addNew l x := by
  conv_lhs => unfold addNew
  rw [if_pos]
  · rfl
  · exact mem_addNew.mpr (Or.inr rfl)

lemma registerFrame_mono {w : World} {g : FrameRef} (h : Known w g) (f : FrameRef) : Known (registerFrame w f) g := by
  cases g with
  | body => trivial
  | sub k =>
    cases f with
    | body => exact h
    | sub k' => exact mem_addNew.mpr (Or.inl h)

lemma registerFrame_of_known {w : World} {f : FrameRef} (h : Known w f) : registerFrame w f = w := by
  cases f with
  | body => rfl
  | sub k => simp only [Known] at h; simp [registerFrame, addNew, h]

/-- registries without duplicates, closed under "frame of a shape" and "frames of a constraint" -/
structure RInv (o : Objs) (w : World) : Prop where
  subframes : w.subframes.Nodup
  shapes : w.shapes.Nodup
  constraints : w.constraints.Nodup
  controllers : w.controllers.Nodup
  shape_known : ∀ s ∈ w.shapes, Known w (o.shapeFrame s)
  con_known : ∀ c ∈ w.constraints, ∀ f ∈ o.conKids c, Known w f

lemma RInv.congr {o : Objs} {w w' : World} (h : RInv o w) (e1 : w'.subframes = w.subframes) (e2 : w'.shapes = w.shapes)
    (e3 : w'.constraints = w.constraints) (e4 : w'.controllers = w.controllers) : RInv o w' := by
  have hk : ∀ f, Known w f → Known w' f := by
    intro f hf; cases f with
    | body => trivial
    | sub k => simpa [Known, e1] using hf
  exact ⟨e1 ▸ h.1, e2 ▸ h.2, e3 ▸ h.3, e4 ▸ h.4, fun s hs => hk _ (h.5 s (e2 ▸ hs)), fun c hc f hf =>
    hk _ (h.6 c (e3 ▸ hc) f hf)⟩

lemma RInv.registerFrame {o : Objs} {w : World} (h : RInv o w) (f : FrameRef) : RInv o (registerFrame w f) := by
  have e : (Graph.registerFrame w f).shapes = w.shapes ∧ (Graph.registerFrame w f).constraints = w.constraints ∧
    (Graph.registerFrame w f).controllers = w.controllers := by cases f <;> simp [Graph.registerFrame]
  refine ⟨?_, e.1 ▸ h.2, e.2.1 ▸ h.3, e.2.2 ▸ h.4, ?_, ?_⟩
  · cases f with
    | body => exact h.1
    | sub k => exact addNew_nodup h.1 k
  · rw [e.1]; exact fun s hs => registerFrame_mono (h.5 s hs) f
  · rw [e.2.1]; exact fun c hc g hg => registerFrame_mono (h.6 c hc g hg) f

lemma foldl_registerFrame_reg (w : World) (l : List FrameRef) :
    (l.foldl registerFrame w).shapes = w.shapes ∧ (l.foldl registerFrame w).constraints = w.constraints ∧
    (l.foldl registerFrame w).controllers = w.controllers ∧ w.subframes <+: (l.foldl registerFrame w).subframes ∧
    (w.subframes.Nodup → (l.foldl registerFrame w).subframes.Nodup) ∧
    (∀ g, Known w g → Known (l.foldl registerFrame w) g) ∧ ∀ g ∈ l, Known (l.foldl registerFrame w) g := by
  induction l generalizing w with
  | nil => simp
  | cons a l ih =>
    obtain ⟨h1, h2, h3, h4, h5, h6, h7⟩ := ih (registerFrame w a)
    have e : (registerFrame w a).shapes = w.shapes ∧ (registerFrame w a).constraints = w.constraints ∧
      (registerFrame w a).controllers = w.controllers ∧ w.subframes <+: (registerFrame w a).subframes ∧
      (w.subframes.Nodup → (registerFrame w a).subframes.Nodup) := by
      cases a with
      | body => simp [registerFrame]
      | sub k => exact ⟨rfl, rfl, rfl, addNew_prefix _ _, fun h => addNew_nodup h k⟩
    refine ⟨h1.trans e.1, h2.trans e.2.1, h3.trans e.2.2.1, e.2.2.2.1.trans h4, fun h => h5 (e.2.2.2.2 h),
      fun g hg => h6 g (registerFrame_mono hg a), fun g hg => ?_⟩
    rcases List.mem_cons.mp hg with rfl | hg
    · exact h6 g (registerFrame_known w g)
    · exact h7 g hg

lemma RInv.register {o : Objs} {w : World} (h : RInv o w) (x : Obj) : RInv o (register o w x).1 := by
  cases x with
  | frame f => exact h.registerFrame f
  | joint => exact h
  | shape s =>
    simp only [Graph.register]
    set w1 : World := { w with shapes := addNew w.shapes s }
    have e : (Graph.registerFrame w1 (o.shapeFrame s)).shapes = addNew w.shapes s ∧
      (Graph.registerFrame w1 (o.shapeFrame s)).constraints = w.constraints ∧
      (Graph.registerFrame w1 (o.shapeFrame s)).controllers = w.controllers := by
        cases o.shapeFrame s <;> simp [Graph.registerFrame, w1]
    refine ⟨?_, e.1 ▸ addNew_nodup h.2 s, e.2.1 ▸ h.3, e.2.2 ▸ h.4, ?_, ?_⟩
    · cases o.shapeFrame s with
      | body => exact h.1
      | sub k => exact addNew_nodup h.1 k
    · rw [e.1]
      intro s' hs'
      rcases mem_addNew.mp hs' with hs' | rfl
      · exact registerFrame_mono (w := w1) (by
          have := h.5 s' hs'
          revert this; cases o.shapeFrame s' <;> exact id) _
      · exact registerFrame_known _ _
    · rw [e.2.1]
      intro c hc f hf
      exact registerFrame_mono (w := w1) (by
          have := h.6 c hc f hf
          revert this; cases f <;> exact id) _
  | con c =>
    simp only [Graph.register]
    split_ifs with hc
    · exact h
    · obtain ⟨h1, h2, h3, h4, h5, h6, h7⟩ :=
        foldl_registerFrame_reg { w with constraints := w.constraints ++ [c] } (o.conKids c)
      refine ⟨h5 h.1, by rw [h1]; exact h.2, ?_, by rw [h3]; exact h.4, ?_, ?_⟩
      · rw [h2]
        have := addNew_nodup h.3 c
        rwa [addNew, if_neg hc] at this
      · rw [h1]
        intro s hs
        have := h.5 s hs
        refine h6 _ ?_
        revert this; cases o.shapeFrame s <;> exact id
      · rw [h2]
        intro c' hc' f hf
        rcases List.mem_append.mp hc' with hc' | hc'
        · refine h6 _ ?_
          have := h.6 c' hc' f hf
          revert this; cases f <;> exact id
        · obtain rfl : c' = c := by simpa using hc'
          exact h7 f hf
  | ctrl c =>
    refine ⟨h.1, h.2, h.3, addNew_nodup h.4 c, fun s hs => ?_, fun c' hc f hf => ?_⟩
    · have := h.5 s hs
      revert this; cases o.shapeFrame s <;> exact id
    · have := h.6 c' hc f hf
      revert this; cases f <;> exact id
  | other => exact h

lemma RInv.addLink1 {o : Objs} {w : World} (h : RInv o w) (f0 f1 : FrameRef) (j : ℕ) : RInv o (addLink1 o w f0 j f1).1 := by
  unfold Graph.addLink1
  simp only
  split_ifs
  · refine RInv.registerFrame (RInv.registerFrame ?_ _) _
    exact h.congr rfl rfl rfl rfl
  · exact h.congr rfl rfl rfl rfl

lemma RInv.addLink {o : Objs} {w : World} (h : RInv o w) (args : List Arg) : RInv o (addLink o w args).1 :=
  addLink_induct (P := RInv o) (fun _ => True) (fun w' f0 j f1 h _ _ _ => h.addLink1 f0 f1 j) w args
    (fun _ _ => trivial) h

lemma RInv.init {o : Objs} {w : World} (h : RInv o w) (lim : ℕ) : RInv o (init o w lim).1 := by
  have key : ∀ (js : List ℕ) (w : World), RInv o w → RInv o (js.foldl (numberStep o) w) := by
    intro js
    induction js with
    | nil => exact fun _ h => h
    | cons a l ih => exact fun w h => ih _ (h.congr rfl rfl rfl rfl)
  unfold Graph.init
  split
  · exact h
  · exact key _ _ (h.congr rfl rfl rfl rfl)

lemma RInv.replaceChain {o : Objs} {w : World} (h : RInv o w) (lim old : ℕ) (f0 f1 : FrameRef) (args : List Arg) :
    RInv o (replaceChain o w lim old f0 f1 args).1 := by
  unfold Graph.replaceChain
  rcases (w.joint old).frame0 with _ | g0 <;> rcases (w.joint old).frame1 with _ | g1 <;> simp only <;> try exact h
  split_ifs
  · have hA := RInv.addLink (o := o) (w := setFrames (setParent w (o.bodyOf f1) none) old none none)
      (h.congr rfl rfl rfl rfl) args
    rcases hx : Graph.addLink o (setFrames (setParent w (o.bodyOf f1) none) old none none) args with ⟨w2, e | ⟨⟩⟩
    · rw [hx] at hA; exact hA
    · rw [hx] at hA
      simp only
      rcases (w2.body (o.bodyOf f0)).children.getLast? with _ | x
      · exact hA
      · refine RInv.init (w := setChildren w2 _ _) ?_ lim
        exact RInv.congr (w := w2) hA rfl rfl rfl rfl
  · exact h

lemma RInv.replaceJoint {o : Objs} {w : World} (h : RInv o w) (lim old : ℕ) (args : List Arg) :
    RInv o (replaceJoint o w lim old args).1 := by
  unfold Graph.replaceJoint
  rcases replaceGuard o w old with e | ⟨g0, g1⟩
  · exact h
  · simp only
    match args with
    | [] => exact h
    | [x] => exact h.replaceChain _ _ _ _ _
    | a :: b :: l =>
      simp only
      split_ifs
      · exact h
      · rcases a with f0 | _ | _ <;> rcases hl : (b :: l).getLast? with _ | (f1 | _ | _) <;>
          simp only [List.head?_cons, List.getLast?_cons_cons, hl] <;> first | exact h | skip
        exact h.replaceChain _ _ _ _ _

lemma RInv.run {o : Objs} {lim : ℕ} {w : World} (h : RInv o w) (op : Op) : RInv o (op.run o lim w).1 := by
  cases op with
  | addLink args => exact h.addLink args
  | register x => exact h.register x
  | replaceJoint old args => exact h.replaceJoint lim old args
  | init => exact h.init lim

lemma RInv.runAll {o : Objs} {lim : ℕ} {w : World} (h : RInv o w) (ops : List Op) : RInv o (runAll o lim w ops) := by
  induction ops generalizing w with
  | nil => exact h
  | cons op ops ih => exact ih (h.run op)

lemma RInv.new (o : Objs) (g : ℕ) : RInv o (World.new g) := by
  constructor <;> simp [World.new]

/-- C58.  After any history whatsoever (failing calls included), no registry lists an object twice. -/
theorem C58_no_duplicates (o : Objs) (lim g : ℕ) (ops : List Op) :
    let w := runAll o lim (World.new g) ops
    w.subframes.Nodup ∧ w.shapes.Nodup ∧ w.constraints.Nodup ∧ w.controllers.Nodup :=
  let h := RInv.runAll (lim := lim) (RInv.new o g) ops
  ⟨h.1, h.2, h.3, h.4⟩

/-- C58.  After any history, the subframe carrying a registered shape and the contact frames of a registered
constraint are registered too. -/
theorem C58_closed (o : Objs) (lim g : ℕ) (ops : List Op) :
    let w := runAll o lim (World.new g) ops
    (∀ s ∈ w.shapes, ∀ f, o.shapeFrame s = .sub f → f ∈ w.subframes) ∧
    (∀ c ∈ w.constraints, ∀ f, .sub f ∈ o.conKids c → f ∈ w.subframes) := by
  intro w
  have h := RInv.runAll (lim := lim) (RInv.new o g) ops
  exact ⟨fun s hs f hf => by have := h.5 s hs; rwa [hf] at this, fun c hc f hf => h.6 c hc _ hf⟩

/-- C58.  Registering an object a second time changes nothing (in a world obtained through the API). -/
theorem C58_idempotent (o : Objs) (lim g : ℕ) (ops : List Op) (x : Obj) :
    let w := runAll o lim (World.new g) ops
    register o (register o w x).1 x = register o w x := by
  intro w
  have h := RInv.runAll (lim := lim) (RInv.new o g) ops
  cases x with
  | frame f => simp [register, registerFrame_of_known (registerFrame_known w f)]
  | joint => rfl
  | shape s =>
    have hk := (h.register (.shape s)).5 s (by
      simp only [register]; cases o.shapeFrame s <;> simp [registerFrame, mem_addNew])
    have hs : s ∈ (register o w (.shape s)).1.shapes := by
      simp only [register]; cases o.shapeFrame s <;> simp [registerFrame, mem_addNew]
    set w1 := (register o w (.shape s)).1 with hw1
    have : register o w (.shape s) = (w1, .ok ()) := rfl
    rw [this]
    simp only [register, Prod.mk.injEq, and_true]
    have e : addNew w1.shapes s = w1.shapes := by unfold addNew; rw [if_pos hs]
    rw [e]
    exact registerFrame_of_known hk
  | con c =>
    by_cases hc : c ∈ w.constraints
    · simp [register, hc]
    · have hm : c ∈ (register o w (.con c)).1.constraints := by
        simp only [register, if_neg hc]
        rw [(foldl_registerFrame_reg _ _).2.1]
        simp
      conv_lhs => rw [register, if_pos hm]
      simp [register, hc]
  | ctrl c => simp [register]
  | other => rfl

/-- C58.  Registered objects stay registered and keep their order: each call only appends. -/
theorem C58_appends (o : Objs) (w : World) (x : Obj) :
    let w' := (register o w x).1
    w.subframes <+: w'.subframes ∧ w.shapes <+: w'.shapes ∧ w.constraints <+: w'.constraints ∧
    w.controllers <+: w'.controllers ∧ w'.body = w.body ∧ w'.joint = w.joint := by
  intro w'
  obtain ⟨a, b, _⟩ := register_structure o w x
  suffices h : w.subframes <+: w'.subframes ∧ w.shapes <+: w'.shapes ∧ w.constraints <+: w'.constraints ∧
      w.controllers <+: w'.controllers from ⟨h.1, h.2.1, h.2.2.1, h.2.2.2, a, b⟩
  have R : ∀ (w : World) f, w.subframes <+: (registerFrame w f).subframes ∧ (registerFrame w f).shapes = w.shapes ∧
      (registerFrame w f).constraints = w.constraints ∧ (registerFrame w f).controllers = w.controllers := by
    intro w f
    cases f with
    | body => exact ⟨List.prefix_rfl, rfl, rfl, rfl⟩
    | sub k => exact ⟨addNew_prefix _ _, rfl, rfl, rfl⟩
  clear a b
  cases x with
  | frame f =>
    obtain ⟨a, b, c, d⟩ := R w f
    exact ⟨a, b ▸ List.prefix_rfl, c ▸ List.prefix_rfl, d ▸ List.prefix_rfl⟩
  | joint => exact ⟨List.prefix_rfl, List.prefix_rfl, List.prefix_rfl, List.prefix_rfl⟩
  | shape s =>
    obtain ⟨a, b, c, d⟩ := R { w with shapes := addNew w.shapes s } (o.shapeFrame s)
    refine ⟨a, ?_, ?_, ?_⟩
    · exact (addNew_prefix w.shapes s).trans (by rw [← show _ = addNew w.shapes s from b]; exact List.prefix_rfl)
    · rw [← show _ = w.constraints from c]; exact List.prefix_rfl
    · rw [← show _ = w.controllers from d]; exact List.prefix_rfl
  | con c =>
    by_cases hc : c ∈ w.constraints
    · have : w' = w := by simp only [w', register, if_pos hc]
      rw [this]
      exact ⟨List.prefix_rfl, List.prefix_rfl, List.prefix_rfl, List.prefix_rfl⟩
    · have hw' : w' = (o.conKids c).foldl registerFrame { w with constraints := w.constraints ++ [c] } := by
        simp only [w', register, if_neg hc]
      obtain ⟨h1, h2, h3, h4, _⟩ := foldl_registerFrame_reg { w with constraints := w.constraints ++ [c] } (o.conKids c)
      rw [hw', h1, h2, h3]
      exact ⟨h4, List.prefix_rfl, List.prefix_append _ _, List.prefix_rfl⟩
  | ctrl c => exact ⟨List.prefix_rfl, List.prefix_rfl, List.prefix_rfl, addNew_prefix _ _⟩
  | other => exact ⟨List.prefix_rfl, List.prefix_rfl, List.prefix_rfl, List.prefix_rfl⟩

/-- C58.  Exactly the joints and the objects of unknown type are refused, with `ValueError` and no effect; anything
else is registered. -/
theorem C58_accepts (o : Objs) (w : World) (x : Obj) :
    let r := register o w x
    match x with
    | .frame (.body _) => r = (w, .ok ())
    | .frame (.sub f) => r.2 = .ok () ∧ f ∈ r.1.subframes
    | .shape s => r.2 = .ok () ∧ s ∈ r.1.shapes
    | .con c => r.2 = .ok () ∧ c ∈ r.1.constraints
    | .ctrl c => r.2 = .ok () ∧ c ∈ r.1.controllers
    | .joint _ => r = (w, .error .valueError)
    | .other => r = (w, .error .valueError) := by
  cases x with
  | frame f => cases f with
    | body => rfl
    | sub f => exact ⟨rfl, mem_addNew.mpr (Or.inr rfl)⟩
  | joint => rfl
  | shape s =>
    refine ⟨rfl, ?_⟩
    simp only [register]; cases o.shapeFrame s <;> simp [registerFrame, mem_addNew]
  | con c =>
    simp only [register]
    split_ifs with hc
    · exact ⟨rfl, hc⟩
    · refine ⟨rfl, ?_⟩
      rw [(foldl_registerFrame_reg _ _).2.1]; simp
  | ctrl c => exact ⟨rfl, mem_addNew.mpr (Or.inr rfl)⟩
  | other => rfl

end Arboris
