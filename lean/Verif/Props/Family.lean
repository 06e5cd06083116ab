import Verif.Model.World
import Mathlib.Data.Fin.Tuple.Basic

/-!
# The constraint solver on a family of constraints

`update_constraints` on a list only depends on the family of its elements; this removes the casts between the rows of the
constraints of a list and those of the list mapped by a function.
-/

namespace Arboris
open Matrix

noncomputable section

variable {n m : ℕ}

section fam
variable (c : Fin m → Con n)

/-- rows of the stacked constraints of a family -/
abbrev FDol := (i : Fin m) × Fin (c i).cls.ndol

/-- states and velocities -/
structure FGS where
  st : (i : Fin m) → (c i).cls.St
  vel : FDol c → ℝ

/-- stacked jacobian -/
def fJac (st : (i : Fin m) → (c i).cls.St) : Matrix (FDol c) (Fin n) ℝ := Matrix.of fun r j => (c r.1).cls.jac (st r.1) r.2 j
/-- forces added -/
def fAdd (st : (i : Fin m) → (c i).cls.St) (g : Fin n → ℝ) : Fin n → ℝ :=
  (List.finRange m).foldl (fun acc i => acc + Con.gforce ⟨(c i).cls, st i⟩) g
/-- one constraint solved -/
def fSolve (A : Matrix (FDol c) (FDol c) ℝ) (dt : ℝ) (s : FGS c) (i : Fin m) : FGS c :=
  let r := (c i).cls.solve (s.st i) (fun k => s.vel ⟨i, k⟩) (Matrix.of fun k l => A ⟨i, k⟩ ⟨i, l⟩) dt
  { st := Function.update s.st i r.1
    vel := fun x => s.vel x + ∑ k, A x ⟨i, k⟩ * r.2 k }
/-- one pass -/
def fSweep (A : Matrix (FDol c) (FDol c) ℝ) (dt : ℝ) (s : FGS c) : FGS c := (List.finRange m).foldl (fSolve c A dt) s
open Classical in
/-- all passes -/
def fLoop (A : Matrix (FDol c) (FDol c) ℝ) (dt tol : ℝ) : ℕ → Bool → FGS c → FGS c
  | 0, _, s => s
  | r + 1, first, s =>
    let s' := fSweep c A dt s
    if first = false ∧ norm2 (fun x => s'.vel x - s.vel x) < tol then s'
    else fLoop A dt tol r false s'
/-- start -/
def fInit (Y mass : Matrix (Fin n) (Fin n) ℝ) (gvel gforce : Fin n → ℝ) (dt : ℝ) : FGS c :=
  { st := fun i => (c i).st
    vel := fJac c (fun i => (c i).st) *ᵥ (Y *ᵥ (mass *ᵥ (dt⁻¹ • gvel) + fAdd c (fun i => (c i).st) gforce)) }
/-- admittance -/
def fAdm (Y : Matrix (Fin n) (Fin n) ℝ) : Matrix (FDol c) (FDol c) ℝ :=
  fJac c (fun i => (c i).st) * (Y * (fJac c fun i => (c i).st)ᵀ)
/-- outcome -/
def fRun (Y mass : Matrix (Fin n) (Fin n) ℝ) (gvel gforce : Fin n → ℝ) (dt : ℝ) (maxiters : ℕ) (tol : ℝ) : FGS c :=
  fLoop c (fAdm c Y) dt tol maxiters true (fInit c Y mass gvel gforce dt)
end fam

/-- force and constraints after the solve -/
def fOut (Y mass : Matrix (Fin n) (Fin n) ℝ) (gvel gforce : Fin n → ℝ) (dt : ℝ) (maxiters : ℕ) (tol : ℝ)
    (x : (m : ℕ) × (Fin m → Con n)) : (Fin n → ℝ) × List (Con n) :=
  let s := fRun x.2 Y mass gvel gforce dt maxiters tol
  (fAdd x.2 s.st gforce, (List.finRange x.1).map fun i => ⟨(x.2 i).cls, s.st i⟩)

/-- from the family to the list -/
def ofFam {cs : List (Con n)} (s : FGS cs.get) : GS cs := ⟨s.st, s.vel⟩

lemma sweep_fam (cs : List (Con n)) (A : Matrix (Dol cs) (Dol cs) ℝ) (dt : ℝ) (s : FGS cs.get) :
    sweep cs A dt (ofFam s) = ofFam (fSweep cs.get A dt s) := by
  unfold sweep fSweep
  generalize List.finRange cs.length = l
  induction l generalizing s with
  | nil => rfl
  | cons i l ih =>
    rw [List.foldl_cons, List.foldl_cons, ← ih]
    rfl

lemma gsLoop_fam (cs : List (Con n)) (A : Matrix (Dol cs) (Dol cs) ℝ) (dt tol : ℝ) (r : ℕ) (b : Bool) (s : FGS cs.get) :
    gsLoop cs A dt tol r b (ofFam s) = ofFam (fLoop cs.get A dt tol r b s) := by
  induction r generalizing b s with
  | zero => rfl
  | succ r ih =>
    simp only [gsLoop, fLoop, sweep_fam, ih]
    simp only [ofFam]
    by_cases hc : b = false ∧ (norm2 fun x => (fSweep cs.get A dt s).vel x - s.vel x) < tol
    · rw [if_pos hc]; exact (if_pos hc).trans rfl
    · rw [if_neg hc]; exact (if_neg hc).trans rfl

lemma updateConstraints_fam (mass : Matrix (Fin n) (Fin n) ℝ) (gvel : Fin n → ℝ) (w : CtrlOut n) (cs : List (Con n)) {dt : ℝ}
    (hdt : 0 < dt) (maxiters : ℕ) (tol : ℝ) : updateConstraints mass gvel w cs dt maxiters tol =
      .ok (fOut w.admittance mass gvel w.gforce dt maxiters tol ⟨_, (activeCons dt cs).get⟩) := by
  have h : gsRun (activeCons dt cs) w.admittance mass gvel w.gforce dt maxiters tol =
      ofFam (fRun (activeCons dt cs).get w.admittance mass gvel w.gforce dt maxiters tol) :=
    gsLoop_fam (activeCons dt cs) _ dt tol maxiters true (fInit _ w.admittance mass gvel w.gforce dt)
  unfold updateConstraints
  rw [if_pos hdt]
  simp only [h]
  rfl

lemma family_map {α β : Type*} (f : α → β) (l : List α) :
    (⟨_, (l.map f).get⟩ : (m : ℕ) × (Fin m → β)) = ⟨l.length, fun i => f (l.get i)⟩ := by
  apply Sigma.ext
  · exact List.length_map f
  · rw [Fin.heq_fun_iff (List.length_map f)]
    intro i
    simp

end
end Arboris
