import Verif.Model.Tree
import Verif.Model.Mass

/-!
# Model of `EnergyMonitor` and `CoMObserver` (observers.py)

`eig S` is the matrix of eigenvectors returned by `numpy.linalg.eig(S)`.
-/

namespace Arboris
open Matrix

noncomputable section

/-! ### EnergyMonitor -/

/-- observers.py:58-66, the lists emptied and the dictionary `_com_pos` filled: for every body below the ground, in
iteration order, the last column of its principal frame.  (The dictionary is keyed by body; it is the list of the values in
iteration order, the bodies of the world being the same from `init` to the last `update`.) -/
def energyInit (eig : Mat3 → Mat3) (bodies : List Body) : Except PyErr (List (Fin 4 → ℝ)) :=
  bodies.mapM fun b => do
    let H ← principalframe b.mass (eig (centralInertia b.mass))
    return fun i => H i 3

/-- the lists `time`, `kinetic_energy`, `potential_energy`, `mechanichal_energy` -/
structure EnergyLog where
  time : List ℝ
  kinetic : List ℝ
  potential : List ℝ
  mechanical : List ℝ

/-- observers.py:68-80 `EnergyMonitor.update` -/
def energyUpdate {n : ℕ} (log : EnergyLog) (com : List (Fin 4 → ℝ)) (time : ℝ) (up : Vec3) (gvel : Fin n → ℝ)
    (mass : Matrix (Fin n) (Fin n) ℝ) (bs : List (Body × BodyDyn n)) : EnergyLog :=
  let Ec := (gvel ⬝ᵥ mass *ᵥ gvel) / 2
  let Ep := (bs.zip com).foldl (fun acc x =>
    let q := x.1.2.pose *ᵥ x.2
    let h := (![q 0, q 1, q 2] : Vec3) ⬝ᵥ up
    acc + x.1.1.mass 3 3 * h) 0
  let Ep := Ep * 9.81
  ⟨log.time ++ [time], log.kinetic ++ [Ec], log.potential ++ [Ep], log.mechanical ++ [Ec + Ep]⟩

/-! ### CoMObserver -/

open Classical in
/-- observers.py:479-486 `CoMObserver.init`: for each body kept (mass > 0), the body, `H_body_com`, `mass` -/
def comInit {β : Type} (eig : Mat3 → Mat3) (user_bodies : List (Body × β)) : Except PyErr (List (β × Mat4 × ℝ)) :=
  (user_bodies.filter fun b => 0 < b.1.mass 5 5).mapM fun b => do
    let H ← principalframe b.1.mass (eig (centralInertia b.1.mass))
    return (b.2, H, b.1.mass 5 5)

/-- `_CoMPosition`, `_CoMJacobian`, `_CoMdJacobian` -/
structure ComOut (n : ℕ) where
  position : Vec3
  jac : Matrix (Fin 3) (Fin n) ℝ
  djac : Matrix (Fin 3) (Fin n) ℝ

/-- rows `3:6` of a 6-row matrix -/
def lower3 {n : ℕ} (A : Matrix (Fin 6) (Fin n) ℝ) : Matrix (Fin 3) (Fin n) ℝ :=
  Matrix.of fun i j => A (e6 (Sum.inr i)) j

/-- observers.py:498-516, one iteration of the loop -/
def comStep {n : ℕ} (computeJac : Bool) (acc : ComOut n) (d : BodyDyn n) (H_body_com : Mat4) (m : ℝ) :
    Except PyErr (ComOut n) := do
  let H_0_com := d.pose * H_body_com
  let position := acc.position + m • pos H_0_com
  if computeJac then
    let H_com_com2 := mkH (rot H_0_com)ᵀ 0
    let Ad ← iadjoint (H_body_com * H_com_com2)
    let jac := acc.jac + m • lower3 (Ad * d.jac)
    let T := tw (ang d.twist) 0
    let dAd := dAdjoint Ad T
    let dJ := Ad * d.djac + dAd * d.jac
    return ⟨position, jac, acc.djac + m • lower3 dJ⟩
  else
    return ⟨position, acc.jac, acc.djac⟩

/-- observers.py:493-520 `CoMObserver.update`; `dyn` gives the attributes of the bodies at the time of the call.  The
final divisions by `total_mass` are by zero (numpy: nan) when no body has a positive mass. -/
def comUpdate {β : Type} {n : ℕ} (computeJac : Bool) (sel : List (β × Mat4 × ℝ)) (dyn : β → BodyDyn n) :
    Except PyErr (ComOut n) := do
  let total := (sel.map fun x => x.2.2).sum
  let s ← sel.foldlM (fun acc x => comStep computeJac acc (dyn x.1) x.2.1 x.2.2) ⟨0, 0, 0⟩
  return ⟨total⁻¹ • s.position, total⁻¹ • s.jac, total⁻¹ • s.djac⟩

end
end Arboris
