import Verif.Model.World
import Mathlib.Analysis.Calculus.ContDiff.Operations
import Mathlib.Analysis.SpecialFunctions.Trigonometric.Deriv
import Mathlib.Analysis.SpecialFunctions.Trigonometric.DerivHyp
import Mathlib.Analysis.Calculus.ContDiff.RCLike

/-!
# The matrices of a mechanism are smooth functions of the coordinates and velocities of its joints
-/

namespace Arboris.Smooth
open Matrix Mech Build Spec

variable {E : Type*} [NormedAddCommGroup E] [NormedSpace ℝ E]

/-- the components are continuously differentiable -/
def SV {a : Type*} (x : E → a → ℝ) : Prop := ∀ i, ContDiff ℝ 1 fun z => x z i

/-- the entries are continuously differentiable -/
def SM {a b : Type*} (A : E → Matrix a b ℝ) : Prop := ∀ i j, ContDiff ℝ 1 fun z => A z i j

section
variable {a b c : Type*}

lemma SM.const (A : Matrix a b ℝ) : SM fun _ : E => A := fun _ _ => contDiff_const
lemma SV.const (x : a → ℝ) : SV fun _ : E => x := fun _ => contDiff_const

lemma SM.add {A B : E → Matrix a b ℝ} (hA : SM A) (hB : SM B) : SM fun z => A z + B z := fun i j => (hA i j).add (hB i j)
lemma SM.sub {A B : E → Matrix a b ℝ} (hA : SM A) (hB : SM B) : SM fun z => A z - B z := fun i j => (hA i j).sub (hB i j)
lemma SV.add {A B : E → a → ℝ} (hA : SV A) (hB : SV B) : SV fun z => A z + B z := fun i => (hA i).add (hB i)
lemma SV.sub {A B : E → a → ℝ} (hA : SV A) (hB : SV B) : SV fun z => A z - B z := fun i => (hA i).sub (hB i)
lemma SV.neg {A : E → a → ℝ} (hA : SV A) : SV fun z => -A z := fun i => (hA i).neg
lemma SM.smul {r : E → ℝ} (hr : ContDiff ℝ 1 r) {A : E → Matrix a b ℝ} (hA : SM A) : SM fun z => r z • A z := fun i j => hr.mul (hA i j)
lemma SV.smul {r : E → ℝ} (hr : ContDiff ℝ 1 r) {A : E → a → ℝ} (hA : SV A) : SV fun z => r z • A z := fun i => hr.mul (hA i)
lemma SM.transpose {A : E → Matrix a b ℝ} (hA : SM A) : SM fun z => (A z)ᵀ := fun i j => hA j i

lemma SM.mul [Fintype b] {A : E → Matrix a b ℝ} {B : E → Matrix b c ℝ} (hA : SM A) (hB : SM B) : SM fun z => A z * B z := by
  intro i j
  simp only [Matrix.mul_apply]
  exact ContDiff.sum fun k _ => (hA i k).mul (hB k j)

lemma SM.mulVec [Fintype b] {A : E → Matrix a b ℝ} {x : E → b → ℝ} (hA : SM A) (hx : SV x) : SV fun z => A z *ᵥ x z := by
  intro i
  simp only [Matrix.mulVec, dotProduct]
  exact ContDiff.sum fun k _ => (hA i k).mul (hx k)

lemma SM.rot {H : E → Mat4} (h : SM H) : SM fun z => rot (H z) := fun _ _ => h _ _
lemma SM.pos {H : E → Mat4} (h : SM H) : SV fun z => pos (H z) := fun _ => h _ _
lemma SV.ang {T : E → Vec6} (h : SV T) : SV fun z => ang (T z) := fun _ => h _
lemma SV.lin {T : E → Vec6} (h : SV T) : SV fun z => lin (T z) := fun _ => h _

lemma SM.blk {A B C D : E → Mat3} (hA : SM A) (hB : SM B) (hC : SM C) (hD : SM D) : SM fun z => blk (A z) (B z) (C z) (D z) := by
  intro i j
  simp only [Arboris.blk, Matrix.submatrix_apply]
  rcases e6.symm i with i | i <;> rcases e6.symm j with j | j
  · exact hA i j
  · exact hB i j
  · exact hC i j
  · exact hD i j

lemma SM.mkH {R : E → Mat3} {p : E → Vec3} (hR : SM R) (hp : SV p) : SM fun z => mkH (R z) (p z) := by
  intro i j
  simp only [Arboris.mkH, Matrix.submatrix_apply]
  rcases e4.symm i with i | i <;> rcases e4.symm j with j | j
  · exact hR i j
  · exact hp i
  · exact contDiff_const
  · exact contDiff_const

lemma SV.skew {p : E → Vec3} (h : SV p) : SM fun z => skew (p z) := by
  intro i j
  have h0 := h 0
  have h1 := h 1
  have h2 := h 2
  fin_cases i <;> fin_cases j <;> simp [Arboris.skew] <;> fun_prop

lemma SV.adjacency {p : E → Vec6} (h : SV p) : SM fun z => adjacency (p z) := by
  intro i j
  have h0 := h 0
  have h1 := h 1
  have h2 := h 2
  have h3 := h 3
  have h4 := h 4
  have h5 := h 5
  fin_cases i <;> fin_cases j <;> simp [Arboris.adjacency] <;> fun_prop

lemma SM.invBody {H : E → Mat4} (h : SM H) : SM fun z => invBody (H z) :=
  SM.mkH h.rot.transpose (h.rot.transpose.mulVec h.pos).neg

lemma SM.adjointBody {H : E → Mat4} (h : SM H) : SM fun z => adjointBody (H z) :=
  SM.blk h.rot (SM.const 0) (h.pos.skew.mul h.rot) h.rot

lemma SM.iadjointBody {H : E → Mat4} (h : SM H) : SM fun z => iadjointBody (H z) := h.invBody.adjointBody

end

/-! ### joints -/

/-- the attributes of a joint -/
structure SJ {k : ℕ} (j : E → JointVal k) : Prop where
  pose : SM fun z => (j z).pose
  ipose : SM fun z => (j z).ipose
  twist : SV fun z => (j z).twist
  jac : SM fun z => (j z).jac
  djac : SM fun z => (j z).djac

set_option maxHeartbeats 1000000 in
lemma pose (k : LinKind) {q : E → Fin k.ndof → ℝ} (hq : SV q) : SM fun z => k.pose (q z) := by
  cases k
  all_goals intro i j
  · have h0 := hq (0 : Fin 3); have h1 := hq (1 : Fin 3); have h2 := hq (2 : Fin 3)
    fin_cases i <;> fin_cases j <;> simp [LinKind.pose, rotzyx] <;> fun_prop
  · have h0 := hq (0 : Fin 2); have h1 := hq (1 : Fin 2)
    fin_cases i <;> fin_cases j <;> simp [LinKind.pose, rotzy] <;> fun_prop
  · have h0 := hq (0 : Fin 2); have h1 := hq (1 : Fin 2)
    fin_cases i <;> fin_cases j <;> simp [LinKind.pose, rotzx] <;> fun_prop
  · have h0 := hq (0 : Fin 2); have h1 := hq (1 : Fin 2)
    fin_cases i <;> fin_cases j <;> simp [LinKind.pose, rotyx] <;> fun_prop
  · have h0 := hq (0 : Fin 1)
    fin_cases i <;> fin_cases j <;> simp [LinKind.pose, rotz] <;> fun_prop
  · have h0 := hq (0 : Fin 1)
    fin_cases i <;> fin_cases j <;> simp [LinKind.pose, roty] <;> fun_prop
  · have h0 := hq (0 : Fin 1)
    fin_cases i <;> fin_cases j <;> simp [LinKind.pose, rotx] <;> fun_prop
  · have h0 := hq (0 : Fin 3); have h1 := hq (1 : Fin 3); have h2 := hq (2 : Fin 3)
    fin_cases i <;> fin_cases j <;> simp [LinKind.pose, transl] <;> fun_prop
  · have h0 := hq (0 : Fin 1)
    fin_cases i <;> fin_cases j <;> simp [LinKind.pose, transl] <;> fun_prop
  · have h0 := hq (0 : Fin 1)
    fin_cases i <;> fin_cases j <;> simp [LinKind.pose, transl] <;> fun_prop
  · have h0 := hq (0 : Fin 1)
    fin_cases i <;> fin_cases j <;> simp [LinKind.pose, transl] <;> fun_prop

lemma ipose (k : LinKind) {q : E → Fin k.ndof → ℝ} (hq : SV q) : SM fun z => k.ipose (q z) := by
  have hp := pose k hq
  have hn : SV fun z => (fun i => -(q z i)) := fun i => (hq i).neg
  have hpn := pose k hn
  cases k
  case RzRyRx => exact hp.invBody
  case RzRy => exact hp.invBody
  case RzRx => exact hp.invBody
  case RyRx => exact hp.invBody
  case TxTyTz => exact hp.invBody
  case Rz => exact hpn
  case Ry => exact hpn
  case Rx => exact hpn
  case Tz => exact hpn
  case Ty => exact hpn
  case Tx => exact hpn

set_option maxHeartbeats 1000000 in
lemma jac (k : LinKind) {q : E → Fin k.ndof → ℝ} (hq : SV q) : SM fun z => k.jac (q z) := by
  cases k
  case RzRyRx =>
    have h0 := hq (0 : Fin 3); have h1 := hq (1 : Fin 3); have h2 := hq (2 : Fin 3)
    intro i (j : Fin 3)
    fin_cases i <;> fin_cases j <;> simp [LinKind.jac] <;> fun_prop
  case RzRy =>
    have h0 := hq (0 : Fin 2); have h1 := hq (1 : Fin 2)
    intro i (j : Fin 2)
    fin_cases i <;> fin_cases j <;> simp [LinKind.jac] <;> fun_prop
  case RzRx =>
    have h0 := hq (0 : Fin 2); have h1 := hq (1 : Fin 2)
    intro i (j : Fin 2)
    fin_cases i <;> fin_cases j <;> simp [LinKind.jac] <;> fun_prop
  case RyRx =>
    have h0 := hq (0 : Fin 2); have h1 := hq (1 : Fin 2)
    intro i (j : Fin 2)
    fin_cases i <;> fin_cases j <;> simp [LinKind.jac] <;> fun_prop
  all_goals exact SM.const _

set_option maxHeartbeats 1000000 in
lemma djac (k : LinKind) {q dq : E → Fin k.ndof → ℝ} (hq : SV q) (hd : SV dq) : SM fun z => k.djac (q z) (dq z) := by
  cases k
  case RzRyRx =>
    have h0 := hq (0 : Fin 3); have h1 := hq (1 : Fin 3); have h2 := hq (2 : Fin 3)
    have d0 := hd (0 : Fin 3); have d1 := hd (1 : Fin 3); have d2 := hd (2 : Fin 3)
    intro i (j : Fin 3)
    fin_cases i <;> fin_cases j <;> simp [LinKind.djac] <;> fun_prop
  case RzRy =>
    have h0 := hq (0 : Fin 2); have h1 := hq (1 : Fin 2)
    have d0 := hd (0 : Fin 2); have d1 := hd (1 : Fin 2)
    intro i (j : Fin 2)
    fin_cases i <;> fin_cases j <;> simp [LinKind.djac] <;> fun_prop
  case RzRx =>
    have h0 := hq (0 : Fin 2); have h1 := hq (1 : Fin 2)
    have d0 := hd (0 : Fin 2); have d1 := hd (1 : Fin 2)
    intro i (j : Fin 2)
    fin_cases i <;> fin_cases j <;> simp [LinKind.djac] <;> fun_prop
  case RyRx =>
    have h0 := hq (0 : Fin 2); have h1 := hq (1 : Fin 2)
    have d0 := hd (0 : Fin 2); have d1 := hd (1 : Fin 2)
    intro i (j : Fin 2)
    fin_cases i <;> fin_cases j <;> simp [LinKind.djac] <;> fun_prop
  all_goals exact SM.const _

lemma val (k : LinKind) {q dq : E → Fin k.ndof → ℝ} (hq : SV q) (hd : SV dq) : SJ fun z => k.val (q z) (dq z) :=
  ⟨pose k hq, ipose k hq, (jac k hq).mulVec hd, jac k hq, djac k hq hd⟩

lemma val_const {k : ℕ} (j : JointVal k) : SJ fun _ : E => j :=
  ⟨SM.const _, SM.const _, SV.const _, SM.const _, SM.const _⟩

/-! ### bodies -/

/-- what is stored in a body -/
structure SB {n : ℕ} (s : E → BodyDyn n) : Prop where
  pose : SM fun z => (s z).pose
  jac : SM fun z => (s z).jac
  djac : SM fun z => (s z).djac
  twist : SV fun z => (s z).twist

lemma addCols {n k : ℕ} {A : E → Matrix (Fin 6) (Fin n) ℝ} {B : E → Matrix (Fin 6) (Fin k) ℝ} (start : ℕ) (hA : SM A) (hB : SM B) :
    SM fun z => addCols (A z) start k (B z) := by
  intro i j
  simp only [Arboris.addCols, Matrix.of_apply]
  by_cases h : start ≤ j.val ∧ j.val < start + k
  · simp only [dif_pos h]
    exact (hA _ _).add (hB _ _)
  · simp only [dif_neg h]
    exact hA _ _

lemma dynStep {n k : ℕ} {s : E → BodyDyn n} {j : E → JointVal k} (start : ℕ) (b0 b1 : Mat4) (hs : SB s) (hj : SJ j) :
    SB fun z => dynStep (s z) ⟨k, start, j z, b0, b1⟩ := by
  have hpc : SM fun z => b0 * ((j z).pose * Arboris.invBody b1) := (SM.const b0).mul (hj.pose.mul (SM.const _))
  have hia : SM fun z => (j z).iadjoint := hj.ipose.adjointBody
  have hid : SM fun z => (j z).idadjoint := hia.mul ((hia.mulVec hj.twist).neg.adjacency)
  have hd : SM fun z => Arboris.adjointBody b1 * ((j z).idadjoint * Arboris.adjointBody (Arboris.invBody b0)) := (SM.const _).mul (hid.mul (SM.const _))
  refine ⟨hs.pose.mul hpc, ?_, ?_, ?_⟩
  · exact addCols start (hpc.iadjointBody.mul hs.jac) ((SM.const (Arboris.adjointBody b1)).mul hj.jac)
  · exact addCols start ((hd.mul hs.jac).add (hpc.iadjointBody.mul hs.djac)) ((SM.const (Arboris.adjointBody b1)).mul hj.djac)
  · exact (hpc.iadjointBody.mulVec hs.twist).add ((SM.const (Arboris.adjointBody b1)).mulVec hj.twist)

/-- a link whose joint depends smoothly on a parameter -/
def SL (l : E → Link) : Prop := ∃ (k start : ℕ) (j : E → JointVal k) (b0 b1 : Mat4), SJ j ∧ ∀ z, l z = ⟨k, start, j z, b0, b1⟩

lemma dynStep_link {n : ℕ} {s : E → BodyDyn n} {l : E → Link} (hs : SB s) (hl : SL l) : SB fun z => Arboris.dynStep (s z) (l z) := by
  obtain ⟨k, start, j, b0, b1, hj, h⟩ := hl
  have e : l = fun z => ⟨k, start, j z, b0, b1⟩ := funext h
  subst e
  exact dynStep start b0 b1 hs hj

/-- the stored values of all bodies -/
theorem updateDynamic {n : ℕ} {L : Type} (f : E → L → Link) (F : Forest L Body) (hf : ∀ l ∈ F.links, SL fun z => f z l) : ∀ {s : E → BodyDyn n}, SB s →
    ∃ bs : List (Body × (E → BodyDyn n)), (∀ x ∈ bs, SB x.2 ∧ x.1 ∈ F.bodies) ∧
      ∀ z, Arboris.updateDynamic (s z) (F.map (f z) id) = bs.map fun x => (x.1, x.2 z) := by
  induction F with
  | nil => exact fun {s} _ => ⟨[], by simp, fun z => rfl⟩
  | cons l b ch sib ihc ihs =>
    intro s hs
    have hl : SL fun z => f z l := hf l (by simp [Forest.links])
    have hs' := dynStep_link hs hl
    obtain ⟨bc, hc1, hc2⟩ := ihc (fun l' h' => hf l' (by simp [Forest.links, h'])) hs'
    obtain ⟨bb, hb1, hb2⟩ := ihs (fun l' h' => hf l' (by simp [Forest.links, h'])) hs
    refine ⟨(b, fun z => Arboris.dynStep (s z) (f z l)) :: (bc ++ bb), ?_, ?_⟩
    · intro x hx
      rcases List.mem_cons.mp hx with rfl | hx
      · exact ⟨hs', by simp [Forest.bodies]⟩
      · rcases List.mem_append.mp hx with hx | hx
        · exact ⟨(hc1 x hx).1, by simp [Forest.bodies, (hc1 x hx).2]⟩
        · exact ⟨(hb1 x hx).1, by simp [Forest.bodies, (hb1 x hx).2]⟩
    · intro z
      rw [Forest.map, Arboris.updateDynamic, hc2 z, hb2 z]
      simp

/-! ### the world -/

lemma sum {a b : Type} {α : Type*} (l : List α) (f : E → α → Matrix a b ℝ) (h : ∀ x ∈ l, SM fun z => f z x) {A : E → Matrix a b ℝ} (hA : SM A) :
    SM fun z => l.foldl (fun acc x => acc + f z x) (A z) := by
  induction l generalizing A with
  | nil => exact hA
  | cons x l ih =>
    exact ih (fun y hy => h y (by simp [hy])) (hA.add (h x (by simp)))

variable {n : ℕ} {bs : List (Body × (E → BodyDyn n))}

lemma mass (h : ∀ x ∈ bs, SB x.2) : SM fun z => worldMass (bs.map fun x => (x.1, x.2 z)) := by
  simp only [worldMass, List.foldl_map]
  exact sum bs (fun z (x : Body × (E → BodyDyn n)) => (x.2 z).jacᵀ * x.1.mass * (x.2 z).jac) (fun x hx => ((h x hx).jac.transpose.mul (SM.const _)).mul (h x hx).jac) (SM.const 0)

lemma viscosity (h : ∀ x ∈ bs, SB x.2) : SM fun z => worldViscosity (bs.map fun x => (x.1, x.2 z)) := by
  simp only [worldViscosity, List.foldl_map]
  exact sum bs (fun z (x : Body × (E → BodyDyn n)) => (x.2 z).jacᵀ * x.1.viscosity * (x.2 z).jac) (fun x hx => ((h x hx).jac.transpose.mul (SM.const _)).mul (h x hx).jac) (SM.const 0)

lemma bodyNleffects (M : Mat6) {T : E → Vec6} (hT : SV T) : SM fun z => Arboris.bodyNleffects M (T z) := by
  have hw : SM fun z => Arboris.skew (ang (T z)) := hT.ang.skew
  exact (SM.blk hw (((SM.const _).mul hw).sub (hw.mul (SM.const _))) (SM.const 0) hw).mul (SM.const M)

lemma nleffects (h : ∀ x ∈ bs, SB x.2) : SM fun z => worldNleffects (bs.map fun x => (x.1, x.2 z)) := by
  simp only [worldNleffects, List.foldl_map]
  refine sum bs (fun z (x : Body × (E → BodyDyn n)) => (x.2 z).jacᵀ * (x.1.mass * (x.2 z).djac + Arboris.bodyNleffects x.1.mass (x.2 z).twist * (x.2 z).jac)) (fun x hx => ?_) (SM.const 0)
  exact (h x hx).jac.transpose.mul (((SM.const _).mul (h x hx).djac).add ((bodyNleffects x.1.mass (h x hx).twist).mul (h x hx).jac))

end Arboris.Smooth
