import Verif.Spec.World
import Verif.Spec.Graft
import Mathlib.Data.Matrix.Block

/-!
# Specification vocabulary: two mechanisms side by side in one world
-/

namespace Arboris.Spec
open Matrix Mech Build

noncomputable section

variable {a b : ℕ}

/-- the vector `[u, v]` -/
def joinVec (u : Fin a → ℝ) (v : Fin b → ℝ) : Fin (a + b) → ℝ := fun i => Sum.elim u v (finSumFinEquiv.symm i)

/-- the block-diagonal matrix of `X` and `Y` -/
def joinMat (X : Matrix (Fin a) (Fin a) ℝ) (Y : Matrix (Fin b) (Fin b) ℝ) : Matrix (Fin (a + b)) (Fin (a + b)) ℝ :=
  (fromBlocks X 0 0 Y).submatrix finSumFinEquiv.symm finSumFinEquiv.symm

/-- the columns of `J`, then columns of zeros -/
def colsL (J : Matrix (Fin 6) (Fin a) ℝ) : Matrix (Fin 6) (Fin (a + b)) ℝ :=
  Matrix.of fun i c => Sum.elim (J i) (fun _ => 0) (finSumFinEquiv.symm c)

/-- columns of zeros, then the columns of `J` -/
def colsR (J : Matrix (Fin 6) (Fin b) ℝ) : Matrix (Fin 6) (Fin (a + b)) ℝ :=
  Matrix.of fun i c => Sum.elim (fun _ => 0) (J i) (finSumFinEquiv.symm c)

/-- a body of the first mechanism, seen in the joined world: same pose, same twist; the dofs of the other mechanism do not
move it -/
def dynL (s : BodyDyn a) : BodyDyn (a + b) := ⟨s.pose, colsL s.jac, colsL s.djac, s.twist⟩

/-- a body of the second mechanism, seen in the joined world -/
def dynR (s : BodyDyn b) : BodyDyn (a + b) := ⟨s.pose, colsR s.jac, colsR s.djac, s.twist⟩

/-- `w` is a world where the mechanisms of `w₁` and `w₂` hang side by side from the ground, in the same state (the numbers given
to the dofs by a previous `init` do not matter). -/
structure SideBySide {σ τ : Type} (w₁ : MWorld a σ) (w₂ : MWorld b τ) (w : MWorld (a + b) (σ × τ)) : Prop where
  tree : ForestRel (fun l l' => l' = { l with start := l'.start }) (w₁.tree.append w₂.tree) w.tree
  cons : w.cons = []
  mem : w.mem = (w₁.mem, w₂.mem)

/-- moreover the velocities are put side by side and the dofs of the second mechanism come after those of the first -/
structure Joined {σ τ : Type} (w₁ : MWorld a σ) (w₂ : MWorld b τ) (w : MWorld (a + b) (σ × τ)) : Prop where
  tree : w.tree = w₁.tree.append (w₂.tree.map (fun l => { l with start := a + l.start }) id)
  gvel : w.gvel = joinVec w₁.gvel w₂.gvel
  cons : w.cons = []
  mem : w.mem = (w₁.mem, w₂.mem)

/-- and every body is where it is in `w₁` or `w₂`, and moves in the same way -/
structure JoinedDyn {σ τ : Type} (w₁ : MWorld a σ) (w₂ : MWorld b τ) (w : MWorld (a + b) (σ × τ)) : Prop extends
    Joined w₁ w₂ w where
  bodies : w.dyn = w₁.dyn.map (fun x => (x.1, dynL x.2)) ++ w₂.dyn.map (fun x => (x.1, dynR x.2))
  mass : w.mass = joinMat w₁.mass w₂.mass
  viscosity : w.viscosity = joinMat w₁.viscosity w₂.viscosity
  nleffects : w.nleffects = joinMat w₁.nleffects w₂.nleffects

/-- the controllers of `P` do to each mechanism what those of `P₁` and `P₂` do -/
def Separate {σ τ : Type} (P₁ : Plug a σ) (P₂ : Plug b τ) (P : Plug (a + b) (σ × τ)) : Prop :=
  ∀ (w₁ : MWorld a σ) (w₂ : MWorld b τ) (w : MWorld (a + b) (σ × τ)) (dt : ℝ) (m₁ : σ) (m₂ : τ) (v₁ : List (CtrlVal a))
    (v₂ : List (CtrlVal b)), JoinedDyn w₁ w₂ w → P₁.ctrl w₁ dt = .ok (m₁, v₁) → P₂.ctrl w₂ dt = .ok (m₂, v₂) →
    ∃ v : List (CtrlVal (a + b)), P.ctrl w dt = .ok ((m₁, m₂), v) ∧
      (v.map (·.gforce)).sum = joinVec (v₁.map (·.gforce)).sum (v₂.map (·.gforce)).sum ∧
      (v.map (·.impedance)).sum = joinMat (v₁.map (·.impedance)).sum (v₂.map (·.impedance)).sum

/-- what the observers were shown in the two worlds and in the joined one, at the same times -/
inductive SeenTogether {σ τ : Type} :
    List (ℕ × ℝ × ℝ × MWorld a σ) → List (ℕ × ℝ × ℝ × MWorld b τ) → List (ℕ × ℝ × ℝ × MWorld (a + b) (σ × τ)) → Prop
  | nil : SeenTogether [] [] []
  | cons {i : ℕ} {dt t : ℝ} {w₁ : MWorld a σ} {w₂ : MWorld b τ} {w : MWorld (a + b) (σ × τ)}
      {u₁ : List (ℕ × ℝ × ℝ × MWorld a σ)} {u₂ : List (ℕ × ℝ × ℝ × MWorld b τ)} {u : List (ℕ × ℝ × ℝ × MWorld (a + b) (σ × τ))}
      (hw : JoinedDyn w₁ w₂ w) (hg : w.ctrl.gforce = joinVec w₁.ctrl.gforce w₂.ctrl.gforce) (h : SeenTogether u₁ u₂ u) :
      SeenTogether ((i, dt, t, w₁) :: u₁) ((i, dt, t, w₂) :: u₂) ((i, dt, t, w) :: u)

end
end Arboris.Spec
