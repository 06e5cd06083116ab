import Verif.Spec.Collada

/-! # Specification: names that may collide in a Collada scene -/

namespace Arboris.Spec
open Visu Build Log Graph

/-- `t` is `s`, or `s` followed by `_i` -/
def Suffixed (s t : String) : Prop := t = s ∨ ∃ i : ℕ, t = s ++ "_" ++ toString i

/-- two names whose ids may collide: equal, or one is the other followed by `_i` -/
def Close (s t : String) : Prop := Suffixed s t ∨ Suffixed t s

/-- frames and shapes -/
abbrev Item := FrameRef ⊕ ℕ

/-- the name asked for the node of a frame or of a shape (spheres and points ask none) -/
def labelOf (lab : Labels) : Item → Option String
  | .inl f => lab.frame f
  | .inr s =>
    match lab.geo s with
    | .point => none
    | .sphere _ => none
    | _ => lab.shape s

/-- a frame of the world other than the ground, or a shape of the world -/
def Drawn (o : Objs) (w : World) (F : Forest (FrameRef × ℕ × FrameRef) ℕ) : Item → Prop
  | .inl f => InWorld o w F f ∧ f ≠ .body w.ground
  | .inr s => s ∈ w.shapes

/-- no name is asked too often: at most 101 of the frames and shapes satisfying `W` have names close to a given one -/
def Capacity (lab : Labels) (W : Item → Prop) : Prop :=
  ∀ s (J : List Item), J.Nodup → (∀ i ∈ J, W i ∧ ∃ u, labelOf lab i = some u ∧ Close s u) → J.length ≤ 101

/-- the ids of a scene -/
def allIds (c : CSt) : List String := (c.ids ++ c.shapes.map (·.id)).filterMap id

end Arboris.Spec
