import Verif.Model.Collada
import Verif.Spec.Drawer

/-! # Specification of the COLLADA documents: what a viewer shows -/

namespace Arboris.Spec
open Log Visu Graph

/-- the `k`-th matrix of an `output` array (`float4x4`: stride 16, line by line) -/
def matrixAt (k : ℕ) (out : List ℝ) : Mat4 := Matrix.of fun i j => (out[16 * k + 4 * i + j]?).getD 0

/-- the `k`-th matrix given to the node `s` by the animations -/
def keyOf (anims : List Anim) (k : ℕ) (s : String) : Option Mat4 :=
  (anims.find? fun a => a.target = s).map fun a => matrixAt k a.output

/-- a node when the animations are at their `k`-th key: if an animation targets its `id`, its matrix is replaced -/
def playNode (anims : List Anim) (k : ℕ) (id : Option String) (n : Node) : Node :=
  { n with pose := (id.bind (keyOf anims k)).getD n.pose }

/-- the scene when the animations are at their `k`-th key -/
def play (anims : List Anim) (k : ℕ) (ids : List (Option String)) (nodes : List Node) : List Node :=
  List.zipWith (playNode anims k) ids nodes

/-- a frame of the world -/
def InWorld (o : Objs) (w : World) (F : Forest (FrameRef × ℕ × FrameRef) ℕ) (f : FrameRef) : Prop :=
  o.bodyOf f ∈ w.ground :: F.bodies ∧ ∀ x, f = .sub x → x ∈ w.subframes

/-- the nodes show the world at the geometry `g`: every frame is at its pose, and there is one node per shape, attached to
the shape's frame, with the shape's mesh and transform (what these are worth: C100) -/
structure Shows (o : Objs) (w : World) (F : Forest (FrameRef × ℕ × FrameRef) ℕ) (lab : Labels) (op : Opts) (argsort : Vec3 → Equiv.Perm (Fin 3))
    (c : CSt) (nodes : List Node) (g : Geo) : Prop where
  frames : ∀ f, InWorld o w F f → ∃ i, PDict.get? c.d.frameNodes f = some i ∧ DrawnAt nodes i (poseOf o g f)
  shapes : ∃ S : List ℕ, S.Nodup ∧ (∀ s, s ∈ S ↔ s ∈ w.shapes ∧ o.bodyOf (o.shapeFrame s) ∈ w.ground :: F.bodies) ∧
    List.Forall₂ (fun s n => DrawnAt nodes n.parent (poseOf o g (o.shapeFrame s)) ∧ shapeXform op argsort (lab.geo s) = .ok (n.mesh, n.xform)) S c.shapes

/-- `t` may be the `id` of the node of a shape: its name, or its name followed by `_i` -/
def ShapeId (w : World) (lab : Labels) (t : String) : Prop :=
  ∃ s ∈ w.shapes, ∃ u, lab.shape s = some u ∧ (t = u ∨ ∃ i : ℕ, t = u ++ "_" ++ toString i)

/-- the names are good: the ground is called "ground", no name is empty, two frames of the world do not have the same
name, and no frame is called as a shape (possibly followed by `_i`) -/
structure GoodNames (o : Objs) (w : World) (F : Forest (FrameRef × ℕ × FrameRef) ℕ) (lab : Labels) : Prop where
  ground : lab.frame (.body w.ground) = some "ground"
  nonempty : ∀ f, InWorld o w F f → lab.frame f ≠ some ""
  inj : ∀ f f' s, InWorld o w F f → InWorld o w F f' → lab.frame f = some s → lab.frame f' = some s → f = f'
  shape : ∀ f s, InWorld o w F f → lab.frame f = some s → ¬ ShapeId w lab s

/-- the logger looks at this world: `encF` and `encJ` number the frames and the joints -/
structure Watches (o : Objs) (w : World) (F : Forest (FrameRef × ℕ × FrameRef) ℕ) (isMoving : ℕ → Bool) (encF : FrameRef → ℕ) (encJ : ℕ → ℕ)
    (lw : LWorld) : Prop where
  inj : Function.Injective encF
  joints : lw.joints = (joints F).map encJ
  bodies : lw.bodies = (w.ground :: F.bodies).map fun b => encF (.body b)
  moving : lw.moving = (w.subframes.filter isMoving).map fun x => encF (.sub x)
  frame1 : ∀ l ∈ F.links, lw.frame1 (encJ l.2.1) = encF l.2.2
  /-- the moving subframes are on bodies of the world -/
  attached : ∀ x ∈ w.subframes, isMoving x = true → o.subBody x ∈ w.ground :: F.bodies

/-- the logger sees the geometry `g` -/
structure Sees (o : Objs) (w : World) (F : Forest (FrameRef × ℕ × FrameRef) ℕ) (encF : FrameRef → ℕ) (encJ : ℕ → ℕ) (v : View) (g : Geo) : Prop where
  frame : ∀ f, InWorld o w F f → v.pose (encF f) = poseOf o g f
  joint : ∀ l ∈ F.links, v.pose (encJ l.2.1) = g.jpose l.2.1
  bpose : ∀ x, InWorld o w F (.sub x) → v.bpose (encF (.sub x)) = g.bpose x

end Arboris.Spec
