import Verif.Props.ConvergeTurn
import Verif.Props.Twist
import Verif.Props.Place
import Mathlib.Analysis.Calculus.Deriv.Prod

/-!
# C133: simulations converge to the exact motion of mechanisms which fly
-/

namespace Arboris
open Matrix Spec Mech Build Sim

/-! ### specification -/

/-- the pose of the free joint whose first dof is `d`, in a family of poses by first dof -/
noncomputable def Spec.poseAt {n : ℕ} (P : Fin n → Fin 4 → Fin 4 → ℝ) (d : ℕ) : Mat4 := if h : d < n then Matrix.of (P ⟨d, h⟩) else 1

/-- six velocities, from the dof `d` -/
noncomputable def Spec.twistAt {n : ℕ} (u : Fin n → ℝ) (d : ℕ) : Vec6 := fun i => entry u (d + i)

/-- the joint at the coordinates `x`, or at its pose in `P` when it is free, with the velocities `u` -/
noncomputable def Spec.flyAt {n : ℕ} (x : Fin n → ℝ) (P : Fin n → Fin 4 → Fin 4 → ℝ) (u : Fin n → ℝ) (l : MLink) : MLink :=
  { l with att := match l.att with
      | .lin k _ _ => .lin k (fun i => entry x (l.start + i)) (fun i => entry u (l.start + i))
      | .free _ _ => .free (poseAt P l.start) (twistAt u l.start)
      | .fixed => .fixed }

/-- the bodies of the world at the coordinates `x` and poses `P`, with the velocities `u` -/
noncomputable def Spec.flyBodies {n : ℕ} {σ : Type} (w : MWorld n σ) (x : Fin n → ℝ) (P : Fin n → Fin 4 → Fin 4 → ℝ) (u : Fin n → ℝ) : List (Body × BodyDyn n) :=
  worldDynamic n (linksOf { w with tree := w.tree.map (flyAt x P u) id, gvel := u })

/-- force of a controller when the coordinates are `x`, the poses of the free joints `P` and the velocities `u` -/
noncomputable def Spec.flyForce {n : ℕ} {σ : Type} (up : Vec3) (m : Body → ℝ) (c : Body → Vec3) (w : MWorld n σ) (x : Fin n → ℝ) (P : Fin n → Fin 4 → Fin 4 → ℝ)
    (u : Fin n → ℝ) : LibCtrl → (Fin n → ℝ)
  | .weight γ => weightPull γ up m c (flyBodies w x P u)
  | .pd js g => pdForce g (dofsOf w js) x u

/-- a world without constraints, of bodies with the mass `m` and center of mass `c` -/
structure Spec.FlyingWorld {n : ℕ} (m : Body → ℝ) (c : Body → Vec3) (w : MWorld n Unit) : Prop where
  dofs : ndof w.tree = n
  links : ∀ l ∈ w.tree.links, RigidLink l
  bodies : ∀ b ∈ w.tree.bodies, (∃ I, IsRigidMass b.mass (m b) (c b) I) ∧ 0 ≤ m b
  cons : w.cons = []

/-- `x`, `P`, `u`, `a` (coordinates, poses of the free joints by first dof, velocities, accelerations, functions of time) are the motion of the
mechanism from `t0` to `T`: it starts as `w`, satisfies the equations of motion (mass matrix, centrifugal and gyroscopic effects, viscosity; the forces are those
of the controllers) at every time, and the velocity of a free joint is that of its pose, in moving axes.  (The coordinates at dofs of free joints and the poses at other dofs are the integrals of
the velocities from any initial value: they are not used.)  The mass matrix stays invertible. -/
structure Spec.FlyPath {n : ℕ} (up : Vec3) (m : Body → ℝ) (c : Body → Vec3) (cs : List LibCtrl) (w : MWorld n Unit) (t0 T : ℝ) (x : ℝ → Fin n → ℝ) (P : ℝ → Fin n → Fin 4 → Fin 4 → ℝ) (u a : ℝ → Fin n → ℝ) : Prop where
  pos : ∀ l ∈ w.tree.links, HasPos (x t0) l
  pose : ∀ l ∈ w.tree.links, ∀ H V, l.att = .free H V → poseAt (P t0) l.start = H
  vel : u t0 = w.gvel
  dx : ∀ t ∈ Set.Icc t0 T, HasDerivAt x (u t) t
  dP : ∀ t ∈ Set.Icc t0 T, ∀ d : Fin n, ∀ i j, HasDerivAt (fun s => P s d i j) ((Matrix.of (P t d) * hat (twistAt (u t) d)) i j) t
  du : ∀ t ∈ Set.Icc t0 T, HasDerivAt u (a t) t
  law : ∀ t ∈ Set.Icc t0 T, worldMass (flyBodies w (x t) (P t) (u t)) *ᵥ a t + worldNleffects (flyBodies w (x t) (P t) (u t)) *ᵥ u t +
    worldViscosity (flyBodies w (x t) (P t) (u t)) *ᵥ u t = (cs.map (flyForce up m c w (x t) (P t) (u t))).sum
  inertia : ∀ t ∈ Set.Icc t0 T, (worldMass (flyBodies w (x t) (P t) (u t))).det ≠ 0

/-- the joints of `w` are those of `w0`, at coordinates, poses and velocities at most `ε` away from `x`, `P` and `u` -/
def Spec.FlyNear {n : ℕ} (w0 : MWorld n Unit) (x : Fin n → ℝ) (P : Fin n → Fin 4 → Fin 4 → ℝ) (u : Fin n → ℝ) (ε : ℝ) (w : MWorld n Unit) : Prop :=
  ∃ q Q, w.tree = w0.tree.map (flyAt q Q w.gvel) id ∧ (∀ d, |q d - x d| ≤ ε) ∧ (∀ d i j, |Q d i j - P d i j| ≤ ε) ∧ ∀ d, |w.gvel d - u d| ≤ ε

namespace Fly
open Smooth Turn

variable {n : ℕ}

/-- coordinates, poses and velocities -/
abbrev Y (n : ℕ) := (Fin n → ℝ) × (Fin n → Fin 4 → Fin 4 → ℝ) × (Fin n → ℝ)

/-! ### smoothness -/

lemma smooth_pose {E : Type*} [NormedAddCommGroup E] [NormedSpace ℝ E] {P : E → Fin n → Fin 4 → Fin 4 → ℝ} (hP : ∀ d i j, ContDiff ℝ 1 fun z => P z d i j) (d : ℕ) :
    SM fun z => poseAt (P z) d := by
  intro i j
  by_cases h : d < n
  · simp only [poseAt, dif_pos h, Matrix.of_apply]
    exact hP _ _ _
  · simp only [poseAt, dif_neg h]
    exact contDiff_const

lemma smooth_twist {E : Type*} [NormedAddCommGroup E] [NormedSpace ℝ E] {u : E → Fin n → ℝ} (hu : SV u) (d : ℕ) : SV fun z => twistAt (u z) d :=
  fun i => smooth_entry hu _

/-- the link as `update_dynamic` reads it -/
noncomputable def linkAt (z : Y n) (l : MLink) : Link :=
  { k := (flyAt z.1 z.2.1 z.2.2 l).att.ndof, start := (flyAt z.1 z.2.1 z.2.2 l).start, joint := (flyAt z.1 z.2.1 z.2.2 l).att.val,
    bpose0 := (flyAt z.1 z.2.1 z.2.2 l).bpose0, bpose1 := (flyAt z.1 z.2.1 z.2.2 l).bpose1 }

lemma smooth_q : SV fun z : Y n => z.1 := fun i => by fun_prop
lemma smooth_v : SV fun z : Y n => z.2.2 := fun i => by fun_prop
lemma smooth_Q (d : Fin n) (i j : Fin 4) : ContDiff ℝ 1 fun z : Y n => z.2.1 d i j := by fun_prop

lemma smooth_link (l : MLink) : SL fun z : Y n => linkAt z l := by
  obtain ⟨att, start, b0, b1⟩ := l
  cases att with
  | lin k q dq =>
    exact ⟨k.ndof, start, fun z => k.val (fun i => entry z.1 (start + i)) (fun i => entry z.2.2 (start + i)), b0, b1,
      val k (fun i => smooth_entry smooth_q _) (fun i => smooth_entry smooth_v _), fun z => rfl⟩
  | free H T =>
    exact ⟨6, start, fun z => freeVal (poseAt z.2.1 start) (twistAt z.2.2 start), b0, b1,
      ⟨smooth_pose smooth_Q _, (smooth_pose smooth_Q _).invBody, smooth_twist smooth_v _, SM.const _, SM.const _⟩, fun z => rfl⟩
  | fixed => exact ⟨_, start, fun _ => _, b0, b1, val_const _, fun z => rfl⟩

lemma smooth_bodies {σ : Type} (w : MWorld n σ) : ∃ bs : List (Body × (Y n → BodyDyn n)), (∀ x ∈ bs, SB x.2) ∧
    ∀ z : Y n, flyBodies w z.1 z.2.1 z.2.2 = bs.map fun x => (x.1, x.2 z) := by
  obtain ⟨bs, h1, h2⟩ := Smooth.updateDynamic (E := Y n) (n := n) linkAt w.tree (fun l _ => smooth_link l) (s := fun _ => groundDyn n)
    ⟨SM.const _, SM.const _, SM.const _, SV.const _⟩
  refine ⟨bs, fun x hx => (h1 x hx).1, fun z => ?_⟩
  rw [← h2 z, flyBodies, worldDynamic, linksOf]
  dsimp only
  rw [map_map']
  rfl

/-! ### the displacement of a free joint in a short time -/

/-- variation of the displacement of a free joint by unit of time -/
noncomputable def turn (dt : ℝ) (V : Vec6) : Mat4 :=
  mkh ((1 - dt ^ 2 * (ang V ⬝ᵥ ang V) / 6) • skew (ang V) + (dt / 2) • (skew (ang V) * skew (ang V)))
    (((1 - dt ^ 2 * (ang V ⬝ᵥ ang V) / 6) • (1 : Mat3) + (dt / 2) • skew (ang V) + (dt ^ 2 / 6) • outer3 (ang V) (ang V)) *ᵥ lin V)

lemma turn_zero (V : Vec6) : turn 0 V = hat V := by
  ext i j
  fin_cases i <;> fin_cases j <;> simp [turn, mkh, hat, skew, ang, lin]

lemma mkH_near (A : Mat3) (v : Vec3) (dt : ℝ) : mkH (1 + dt • A) (dt • v) = 1 + dt • mkh A v := by
  ext i j
  fin_cases i <;> fin_cases j <;> simp [mkH, mkh]

lemma ang_smul' (dt : ℝ) (V : Vec6) : ang (dt • V) = dt • ang V := rfl
lemma lin_smul' (dt : ℝ) (V : Vec6) : lin (dt • V) = dt • lin V := rfl

lemma exp_small {dt : ℝ} {V : Vec6} (h : norm3 (ang (dt • V)) < 0.001) : twistExp (dt • V) = 1 + dt • turn dt V := by
  unfold twistExp
  rw [if_neg (not_le.mpr h)]
  simp only [expCoeffs, norm3_sq, ang_smul', lin_smul', turn]
  rw [← mkH_near]
  have h1 : dt • ang V ⬝ᵥ dt • ang V = dt ^ 2 * (ang V ⬝ᵥ ang V) := by
    rw [smul_dotProduct, dotProduct_smul, smul_eq_mul, smul_eq_mul]; ring
  have h2 : outer3 (dt • ang V) (dt • ang V) = dt ^ 2 • outer3 (ang V) (ang V) := by
    ext i j; simp only [outer3, Matrix.of_apply, Pi.smul_apply, Matrix.smul_apply, smul_eq_mul]; ring
  rw [h1, h2, skew_smul]
  refine congrArg₂ mkH ?_ ?_
  · rw [Matrix.smul_mul, Matrix.mul_smul]
    module
  · rw [Matrix.mulVec_smul]
    refine congrArg (fun A : Mat3 => dt • (A *ᵥ lin V)) ?_
    module

lemma smooth_outer {E : Type*} [NormedAddCommGroup E] [NormedSpace ℝ E] {x : E → Vec3} (hx : SV x) : SM fun z => outer3 (x z) (x z) :=
  fun i j => (hx i).mul (hx j)

lemma smooth_turn {E : Type*} [NormedAddCommGroup E] [NormedSpace ℝ E] {V : E → Vec6} {τ : E → ℝ} (hV : SV V) (hτ : ContDiff ℝ 1 τ) : SM fun z => turn (τ z) (V z) := by
  have hd : ContDiff ℝ 1 fun z => ang (V z) ⬝ᵥ ang (V z) := ContDiff.sum fun i _ => (hV.ang i).mul (hV.ang i)
  have hc : ContDiff ℝ 1 fun z => 1 - τ z ^ 2 * (ang (V z) ⬝ᵥ ang (V z)) / 6 := contDiff_const.sub (((hτ.pow 2).mul hd).div_const 6)
  have hA : SM fun z => (1 - τ z ^ 2 * (ang (V z) ⬝ᵥ ang (V z)) / 6) • skew (ang (V z)) + (τ z / 2) • (skew (ang (V z)) * skew (ang (V z))) :=
    (SM.smul hc hV.ang.skew).add (SM.smul (hτ.div_const 2) (hV.ang.skew.mul hV.ang.skew))
  have hp : SV fun z => ((1 - τ z ^ 2 * (ang (V z) ⬝ᵥ ang (V z)) / 6) • (1 : Mat3) + (τ z / 2) • skew (ang (V z)) + (τ z ^ 2 / 6) • outer3 (ang (V z)) (ang (V z))) *ᵥ lin (V z) :=
    (((SM.smul hc (SM.const _)).add (SM.smul (hτ.div_const 2) hV.ang.skew)).add (SM.smul ((hτ.pow 2).div_const 6) (smooth_outer hV.ang))).mulVec hV.lin
  have key : ∀ (A : Mat3) (v : Vec3), mkh A v = mkH A v - mkH 0 0 := by
    intro A v
    ext i j
    fin_cases i <;> fin_cases j <;> simp [mkH, mkh]
  simp only [turn, key]
  exact (hA.mkH hp).sub (SM.const _)

/-! ### one step -/

/-- matrix of a step -/
noncomputable def lhs (M B N : Y n → Matrix (Fin n) (Fin n) ℝ) (K D : Matrix (Fin n) (Fin n) ℝ) (p : ℝ × Y n) : Matrix (Fin n) (Fin n) ℝ :=
  M p.2 + p.1 • (B p.2 + N p.2 + (p.1 • K + D))

/-- vector of a step -/
noncomputable def rhs (B N : Y n → Matrix (Fin n) (Fin n) ℝ) (K D : Matrix (Fin n) (Fin n) ℝ) (b : Y n → Fin n → ℝ) (p : ℝ × Y n) : Fin n → ℝ :=
  b p.2 - K *ᵥ p.2.1 - (B p.2 + N p.2 + (p.1 • K + D)) *ᵥ p.2.2.2

/-- acceleration during a step -/
noncomputable def acc (M B N : Y n → Matrix (Fin n) (Fin n) ℝ) (K D : Matrix (Fin n) (Fin n) ℝ) (b : Y n → Fin n → ℝ) (p : ℝ × Y n) : Fin n → ℝ := (lhs M B N K D p)⁻¹ *ᵥ rhs B N K D b p

/-- velocities after a step -/
noncomputable def next (M B N : Y n → Matrix (Fin n) (Fin n) ℝ) (K D : Matrix (Fin n) (Fin n) ℝ) (b : Y n → Fin n → ℝ) (p : ℝ × Y n) : Fin n → ℝ := p.2.2.2 + p.1 • acc M B N K D b p

/-- variation during a step, by unit of time -/
noncomputable def slope (M B N : Y n → Matrix (Fin n) (Fin n) ℝ) (K D : Matrix (Fin n) (Fin n) ℝ) (b : Y n → Fin n → ℝ) (p : ℝ × Y n) : Y n :=
  (next M B N K D b p, fun d i j => (Matrix.of (p.2.2.1 d) * turn p.1 (twistAt (next M B N K D b p) d)) i j, acc M B N K D b p)

section
variable {M B N : Y n → Matrix (Fin n) (Fin n) ℝ} {K D : Matrix (Fin n) (Fin n) ℝ} {b : Y n → Fin n → ℝ}

lemma comp_snd {a c : Type*} {A : Y n → Matrix a c ℝ} (hA : SM A) : SM fun p : ℝ × Y n => A p.2 := fun i j => (hA i j).comp contDiff_snd

lemma smooth_lhs (hM : SM M) (hB : SM B) (hN : SM N) : SM (lhs M B N K D) :=
  (comp_snd hM).add (SM.smul contDiff_fst (((comp_snd hB).add (comp_snd hN)).add ((SM.smul contDiff_fst (SM.const K)).add (SM.const D))))

lemma smooth_rhs (hB : SM B) (hN : SM N) (hb : SV b) : SV (rhs B N K D b) := by
  have h1 : SV fun p : ℝ × Y n => p.2.1 := fun i => by fun_prop
  have h2 : SV fun p : ℝ × Y n => p.2.2.2 := fun i => by fun_prop
  have h3 : SV fun p : ℝ × Y n => b p.2 := fun i => (hb i).comp contDiff_snd
  exact (h3.sub ((SM.const K).mulVec h1)).sub ((((comp_snd hB).add (comp_snd hN)).add ((SM.smul contDiff_fst (SM.const K)).add (SM.const D))).mulVec h2)

/-- the poses after a step, by unit of time, when the acceleration is `α` -/
lemma smooth_move : ContDiff ℝ 1 fun p : (ℝ × Y n) × (Fin n → ℝ) => (fun d i j => (Matrix.of (p.1.2.2.1 d) * turn p.1.1 (twistAt (p.1.2.2.2 + p.1.1 • p.2) d)) i j : Fin n → Fin 4 → Fin 4 → ℝ) := by
  have h1 : SV fun p : (ℝ × Y n) × (Fin n → ℝ) => p.1.2.2.2 + p.1.1 • p.2 := fun i => by
    simp only [Pi.add_apply, Pi.smul_apply, smul_eq_mul]
    fun_prop
  refine contDiff_pi.mpr fun d => contDiff_pi.mpr fun i => contDiff_pi.mpr fun j => ?_
  have h2 : SM fun p : (ℝ × Y n) × (Fin n → ℝ) => (Matrix.of (p.1.2.2.1 d) : Mat4) := fun i j => by
    simp only [Matrix.of_apply]
    fun_prop
  exact (h2.mul (smooth_turn (smooth_twist h1 d) (by fun_prop))) i j

lemma smooth_acc (hM : SM M) (hB : SM B) (hN : SM N) (hb : SV b) {p : ℝ × Y n} (hp : (lhs M B N K D p).det ≠ 0) : ContDiffAt ℝ 1 (acc M B N K D b) p := by
  refine contDiffAt_pi.mpr fun i => ?_
  simp only [acc, Matrix.mulVec, dotProduct]
  exact ContDiffAt.sum fun j _ => (smooth_inv (smooth_lhs hM hB hN) hp i j).mul (smooth_rhs hB hN hb j).contDiffAt

lemma smooth_slope (hM : SM M) (hB : SM B) (hN : SM N) (hb : SV b) {p : ℝ × Y n} (hp : (lhs M B N K D p).det ≠ 0) : ContDiffAt ℝ 1 (slope M B N K D b) p := by
  have ha := smooth_acc hM hB hN hb hp
  have hn : ContDiffAt ℝ 1 (next M B N K D b) p := (contDiffAt_snd.snd'.snd').add (contDiffAt_fst.smul ha)
  exact hn.prodMk ((smooth_move.contDiffAt.comp p (contDiffAt_id.prodMk ha)).prodMk ha)

lemma smooth_speed (d : ℕ) : Continuous fun q : ℝ × (Fin n → ℝ) => norm3 (ang (q.1 • twistAt q.2 d)) := by
  have h2 : SV fun q : ℝ × (Fin n → ℝ) => ang (q.1 • twistAt q.2 d) := by
    have : SV fun q : ℝ × (Fin n → ℝ) => q.2 := fun i => by fun_prop
    exact (SV.smul contDiff_fst (smooth_twist this d)).ang
  unfold norm3
  exact Real.continuous_sqrt.comp ((((h2 0).continuous.pow 2).add ((h2 1).continuous.pow 2)).add ((h2 2).continuous.pow 2))

lemma eventually_small {g : ℝ × (Fin n → ℝ) → ℝ} (hg : Continuous g) {f : ℝ × Y n → Fin n → ℝ} {z : Y n} (hf : ContinuousAt f ((0 : ℝ), z)) {ε : ℝ}
    (h0 : g (0, f (0, z)) < ε) : ∀ᶠ p in nhds ((0 : ℝ), z), g (p.1, f p) < ε := by
  have hc : ContinuousAt (fun p : ℝ × Y n => g (p.1, f p)) ((0 : ℝ), z) := hg.continuousAt.comp (continuousAt_fst.prodMk hf)
  exact hc.preimage_mem_nhds (Iio_mem_nhds h0)

/-- where a step is determined and the rotations are small -/
def Good (M B N : Y n → Matrix (Fin n) (Fin n) ℝ) (K D : Matrix (Fin n) (Fin n) ℝ) (b : Y n → Fin n → ℝ) : Set (ℝ × Y n) :=
  {p | (lhs M B N K D p).det ≠ 0 ∧ ∀ d : Fin n, norm3 (ang (p.1 • twistAt (next M B N K D b p) d)) < 0.001}

lemma local_slope (hM : SM M) (hB : SM B) (hN : SM N) (hb : SV b) {z : Y n} (hz : (M z).det ≠ 0) :
    ∃ L, ∃ s ∈ nhds ((0 : ℝ), z), LipschitzOnWith L (slope M B N K D b) s ∧ s ⊆ Good M B N K D b := by
  have h0 : (lhs M B N K D (0, z)).det ≠ 0 := by simpa [lhs] using hz
  obtain ⟨L, s, hs, hL⟩ := (smooth_slope hM hB hN hb h0).exists_lipschitzOnWith
  have ho : {p | (lhs M B N K D p).det ≠ 0} ∈ nhds ((0 : ℝ), z) :=
    (isOpen_ne.preimage (smooth_det (smooth_lhs hM hB hN)).continuous).mem_nhds h0
  have hn : ContinuousAt (next M B N K D b) ((0 : ℝ), z) :=
    ((contDiffAt_snd.snd'.snd').add (contDiffAt_fst.smul (smooth_acc hM hB hN hb h0))).continuousAt
  have ha : ∀ d : Fin n, ∀ᶠ p in nhds ((0 : ℝ), z), norm3 (ang (p.1 • twistAt (next M B N K D b p) d)) < 0.001 := by
    intro d
    have hg := smooth_speed (n := n) d
    have hg0 : norm3 (ang ((0 : ℝ) • twistAt (next M B N K D b (0, z)) d)) < 0.001 := by
      rw [ang_smul', zero_smul]
      simp [norm3]
      norm_num
    exact eventually_small (g := fun q : ℝ × (Fin n → ℝ) => norm3 (ang (q.1 • twistAt q.2 d))) hg hn hg0
  refine ⟨L, s ∩ Good M B N K D b, Filter.inter_mem hs (Filter.inter_mem ho (Filter.eventually_all.mpr ha)), hL.mono Set.inter_subset_left, Set.inter_subset_right⟩

lemma slope_zero {x : Fin n → ℝ} {P : Fin n → Fin 4 → Fin 4 → ℝ} {u a : Fin n → ℝ} (hz : (M (x, P, u)).det ≠ 0)
    (h : M (x, P, u) *ᵥ a + N (x, P, u) *ᵥ u + B (x, P, u) *ᵥ u = b (x, P, u) - K *ᵥ x - D *ᵥ u) :
    slope M B N K D b (0, (x, P, u)) = (u, fun d i j => (Matrix.of (P d) * hat (twistAt u d)) i j, a) := by
  have e : acc M B N K D b (0, (x, P, u)) = a := by
    unfold acc lhs rhs
    simp only [zero_smul, add_zero, zero_add]
    have e2 : b (x, P, u) - K *ᵥ x - (B (x, P, u) + N (x, P, u) + D) *ᵥ u = M (x, P, u) *ᵥ a := by
      rw [Matrix.add_mulVec, Matrix.add_mulVec]
      funext i
      have h1 := congrFun h i
      simp only [Pi.add_apply, Pi.sub_apply] at h1 ⊢
      linarith
    rw [e2, Matrix.mulVec_mulVec, Matrix.nonsing_inv_mul _ (isUnit_iff_ne_zero.mpr hz), Matrix.one_mulVec]
  have e2 : next M B N K D b (0, (x, P, u)) = u := by simp [next]
  unfold slope
  rw [e, e2]
  simp only [turn_zero]

/-- the equation of motion has no other solution -/
lemma slope_step {dt : ℝ} (hdt : dt ≠ 0) {q : Fin n → ℝ} {Q : Fin n → Fin 4 → Fin 4 → ℝ} {v v' : Fin n → ℝ} (hp : (dt, (q, Q, v)) ∈ Good M B N K D b)
    (h : M (q, Q, v) *ᵥ (v' - v) + dt • ((B (q, Q, v) + N (q, Q, v)) *ᵥ v') = dt • (b (q, Q, v) - K *ᵥ (q + dt • v') - D *ᵥ v')) :
    (q + dt • v', (fun d i j => (Matrix.of (Q d) * twistExp (dt • twistAt v' d)) i j : Fin n → Fin 4 → Fin 4 → ℝ), v') = (q, Q, v) + dt • slope M B N K D b (dt, (q, Q, v)) := by
  obtain ⟨g, rfl⟩ : ∃ g, v' = v + dt • g := ⟨dt⁻¹ • (v' - v), by rw [smul_smul, mul_inv_cancel₀ hdt, one_smul]; abel⟩
  have e : g = acc M B N K D b (dt, (q, Q, v)) := by
    have h1 : lhs M B N K D (dt, (q, Q, v)) *ᵥ g = rhs B N K D b (dt, (q, Q, v)) := by
      have h2 := congrArg (dt⁻¹ • ·) h
      simp only [add_sub_cancel_left, smul_add, smul_smul, inv_mul_cancel₀ hdt, one_smul, Matrix.mulVec_smul] at h2
      unfold lhs rhs
      simp only [Matrix.add_mulVec, Matrix.smul_mulVec, Matrix.mulVec_add, Matrix.mulVec_smul, smul_add, smul_smul] at h2 ⊢
      have h3 := sub_eq_zero.mpr h2
      rw [← sub_eq_zero, ← h3]
      module
    unfold acc
    rw [← h1, Matrix.mulVec_mulVec, Matrix.nonsing_inv_mul _ (isUnit_iff_ne_zero.mpr hp.1), Matrix.one_mulVec]
  have e2 : v + dt • g = next M B N K D b (dt, (q, Q, v)) := by rw [e]; rfl
  refine Prod.ext ?_ (Prod.ext ?_ ?_)
  · simp only [slope, Prod.fst_add, Prod.smul_fst, ← e2]
  · funext d i j
    have h3 := hp.2 d
    rw [← e2] at h3
    simp only [slope, Prod.fst_add, Prod.snd_add, Prod.smul_fst, Prod.smul_snd, Pi.add_apply, Pi.smul_apply, ← e2]
    rw [exp_small h3, Matrix.mul_add, Matrix.mul_one, Matrix.mul_smul]
    rfl
  · simp only [slope, Prod.snd_add, Prod.smul_snd, ← e]
end

/-! ### simulations -/

/-- the poses after a step -/
noncomputable def moved (dt : ℝ) (Q : Fin n → Fin 4 → Fin 4 → ℝ) (v' : Fin n → ℝ) : Fin n → Fin 4 → Fin 4 → ℝ :=
  fun d i j => (Matrix.of (Q d) * twistExp (dt • twistAt v' d)) i j

lemma flyAt_moved {dt : ℝ} {q v v' : Fin n → ℝ} {Q : Fin n → Fin 4 → Fin 4 → ℝ} {l l' : MLink} (hb : l.start + l.att.ndof ≤ n) (h : Moved dt v' (flyAt q Q v l) l') :
    l' = flyAt (q + dt • v') (moved dt Q v') v' l := by
  obtain ⟨att, start, b0, b1⟩ := l
  obtain ⟨att', start', b0', b1'⟩ := l'
  obtain ⟨h1, h2, h3, h4⟩ := h
  cases att with
  | free H T =>
    simp only [flyAt] at h1 h2 h3 h4 ⊢
    subst h1 h2 h3
    have hb : start' + 6 ≤ n := hb
    cases h4 with
    | free _ E _ hb' hE _ =>
      have e : slice v' start' 6 hb' = twistAt v' start' := by
        funext i
        simp only [twistAt, entry, slice]
        rw [dif_pos (by omega)]
      have hd : start' < n := by omega
      rw [hE, e]
      congr 2
      simp only [poseAt, dif_pos hd, moved]
      rfl
  | fixed =>
    simp only [flyAt] at h1 h2 h3 h4 ⊢
    subst h1 h2 h3
    cases h4
    rfl
  | lin k p dp =>
    simp only [flyAt] at h1 h2 h3 h4 ⊢
    subst h1 h2 h3
    have hb : start' + k.ndof ≤ n := hb
    cases h4 with
    | lin _ _ _ hb' =>
      have e : ∀ (x : Fin n → ℝ) (i : Fin k.ndof), entry x (start' + i) = slice x start' k.ndof hb i := by
        intro x i
        simp only [entry, slice]
        rw [dif_pos (by omega)]
      congr 2
      · funext i
        simp only [e]
        rfl
      · funext i
        rw [e]

lemma tree_moved {dt : ℝ} {q v v' : Fin n → ℝ} {Q : Fin n → Fin 4 → Fin 4 → ℝ} : ∀ {F F' : Forest MLink Body}, (∀ l ∈ F.links, l.start + l.att.ndof ≤ n) →
    ForestRel (Moved dt v') (F.map (flyAt q Q v) id) F' → F' = F.map (flyAt (q + dt • v') (moved dt Q v') v') id
  | .nil, F', _, h => by
    rw [Forest.map] at h
    cases h
    rfl
  | .cons l b ch sib, F', hb, h => by
    rw [Forest.map] at h
    cases h with
    | cons hl hc hs =>
      have h1 := hb l (by simp [Forest.links])
      rw [Forest.map, flyAt_moved h1 hl, tree_moved (fun l' h' => hb l' (by simp [Forest.links, h'])) hc, tree_moved (fun l' h' => hb l' (by simp [Forest.links, h'])) hs]

lemma flyAt_self {q v : Fin n → ℝ} {Q : Fin n → Fin 4 → Fin 4 → ℝ} {l : MLink} (hq : HasPos q l) (hQ : ∀ H V, l.att = .free H V → poseAt Q l.start = H) (hv : HasVel v l) :
    flyAt q Q v l = l := by
  obtain ⟨att, start, b0, b1⟩ := l
  cases att with
  | free H T =>
    obtain ⟨hb, e1⟩ := hv
    dsimp only at hb e1
    have e : twistAt v start = slice v start 6 hb := by
      funext i
      simp only [twistAt, entry, slice]
      rw [dif_pos (by omega)]
    simp only [flyAt, hQ H T rfl, e, e1]
  | fixed => rfl
  | lin k p dp =>
    obtain ⟨hb, e1⟩ := hq
    obtain ⟨hb', e2⟩ := hv
    dsimp only at hb e1 hb' e2
    have e : ∀ (x : Fin n → ℝ) (i : Fin k.ndof), entry x (start + i) = slice x start k.ndof hb i := by
      intro x i
      simp only [entry, slice]
      rw [dif_pos (by omega)]
    simp only [flyAt, e, e1, e2]

lemma bound_of_vel {ν : Fin n → ℝ} {l : MLink} (h : HasVel ν l) : l.start + l.att.ndof ≤ n := by
  obtain ⟨att, start, b0, b1⟩ := l
  cases att with
  | free H T => exact h.1
  | fixed => exact h
  | lin k p dp => exact h.1

/-! ### the controllers -/

lemma weight_inv {γ : ℝ} {up : Vec3} {bs : List (Body × BodyDyn n)} {out : CtrlVal n} (ho : weightUpdateE γ up bs = .ok out)
    (hz : ∀ x ∈ bs, (∀ i j, x.1.mass i j ≤ 0) → x.1.mass *ᵥ (iadjointBody x.2.pose *ᵥ gravityTwist γ up) = 0) :
    out = ⟨(bs.map fun x => x.2.jacᵀ *ᵥ (x.1.mass *ᵥ (iadjointBody x.2.pose *ᵥ gravityTwist γ up))).sum, 0⟩ := by
  classical
  have key : ∀ (l : List (Body × BodyDyn n)) (acc g : Fin n → ℝ),
      (l.foldlM (init := acc) fun acc x => do
        let A ← iadjoint x.2.pose
        return acc + x.2.jacᵀ *ᵥ (x.1.mass *ᵥ (A *ᵥ gravityTwist γ up)) : Except PyErr (Fin n → ℝ)) = .ok g →
      g = acc + (l.map fun x => x.2.jacᵀ *ᵥ (x.1.mass *ᵥ (iadjointBody x.2.pose *ᵥ gravityTwist γ up))).sum := by
    intro l
    induction l with
    | nil =>
      intro acc g h
      obtain rfl := Except.ok.inj h
      simp
    | cons x l ih =>
      intro acc g h
      rw [List.foldlM_cons, iadjoint_eq] at h
      unfold assertHom at h
      by_cases hh : ishomogeneousmatrix x.2.pose
      · rw [if_pos hh] at h
        rw [List.map_cons, List.sum_cons, ← add_assoc]
        exact ih _ _ h
      · rw [if_neg hh] at h
        cases h
  unfold weightUpdateE at ho
  simp only [bind, Except.bind] at ho
  split at ho
  · cases ho
  rename_i g hg
  have hk := key (bs.filter fun x => weightNorm x.1.mass ≠ 0) 0 g hg
  obtain rfl := Except.ok.inj ho
  rw [hk]
  clear hk hg key
  refine congrArg (fun v => (⟨v, 0⟩ : CtrlVal n)) ?_
  rw [zero_add]
  clear ho
  induction bs with
  | nil => rfl
  | cons x l ih =>
    have ih := ih (fun y hy => hz y (List.mem_cons_of_mem _ hy))
    rw [List.filter_cons]
    split_ifs with hx
    · rw [List.map_cons, List.map_cons, List.sum_cons, List.sum_cons, ih]
    · rw [List.map_cons, List.sum_cons, ih, hz x List.mem_cons_self, Matrix.mulVec_zero, zero_add]
      simp only [decide_eq_true_eq, weightNorm_ne_zero] at hx
      push Not at hx
      exact hx

lemma light {γ : ℝ} {up : Vec3} {m : Body → ℝ} {c : Body → Vec3} {bs : List (Body × BodyDyn n)}
    (hM : ∀ x ∈ bs, (∃ I, IsRigidMass x.1.mass (m x.1) (c x.1) I) ∧ 0 ≤ m x.1) :
    ∀ x ∈ bs, (∀ i j, x.1.mass i j ≤ 0) → x.1.mass *ᵥ (iadjointBody x.2.pose *ᵥ gravityTwist γ up) = 0 := by
  intro x hx hneg
  obtain ⟨⟨I, hr⟩, h0⟩ := hM x hx
  have hz : m x.1 = 0 := by
    refine le_antisymm ?_ h0
    have := hneg 3 3
    simp only [hr.eq] at this
    simpa [blk] using this
  unfold gravityTwist
  rw [iadj_zero, hr.eq, hz, blk_mulVec]
  simp [tw_zero]

/-- the forces of weight are those of the model -/
lemma pull_at {γ : ℝ} {up : Vec3} {m : Body → ℝ} {c : Body → Vec3} {bs : List (Body × BodyDyn n)}
    (hM : ∀ x ∈ bs, (∃ I, IsRigidMass x.1.mass (m x.1) (c x.1) I) ∧ 0 ≤ m x.1) {out : CtrlVal n} (ho : weightUpdateE γ up bs = .ok out) (v : Fin n → ℝ) :
    out.gforce + out.impedance *ᵥ v = weightPull γ up m c bs := by
  obtain rfl := weight_inv ho (light hM)
  dsimp only
  rw [Matrix.zero_mulVec, add_zero]
  clear ho
  funext e
  unfold weightPull
  induction bs with
  | nil => simp
  | cons x bs ih =>
    have ih := ih fun y hy => hM y (by simp [hy])
    obtain ⟨⟨I, hr⟩, h0⟩ := hM x (by simp)
    have hb : (x.2.jacᵀ *ᵥ (x.1.mass *ᵥ (iadjointBody x.2.pose *ᵥ gravityTwist γ up))) e =
        m x.1 * γ * (up ⬝ᵥ (rot x.2.pose *ᵥ (lin (x.2.jac *ᵥ Pi.single e 1) + ang (x.2.jac *ᵥ Pi.single e 1) ⨯₃ c x.1))) := by
      have e0 : ∀ y : Fin n → ℝ, y e = Pi.single e 1 ⬝ᵥ y := fun y => by simp
      rw [e0 (x.2.jacᵀ *ᵥ _), dot_transpose_mul, gravityTwist, iadj_zero, hr.eq]
      generalize x.2.jac *ᵥ (Pi.single e 1 : Fin n → ℝ) = V
      obtain ⟨w, u, rfl⟩ : ∃ w u, V = tw w u := ⟨ang V, lin V, (tw_ang_lin V).symm⟩
      rw [blk_mulVec, tw_dot]
      have h1 : ∀ y : Vec3, up ⬝ᵥ (rot x.2.pose *ᵥ y) = ((rot x.2.pose)ᵀ *ᵥ up) ⬝ᵥ y := fun y => by
        rw [dotProduct_comm ((rot x.2.pose)ᵀ *ᵥ up), dot_transpose_mul, dotProduct_comm]
      rw [h1]
      simp only [ang_tw, lin_tw, Matrix.mulVec_smul]
      generalize (rot x.2.pose)ᵀ *ᵥ up = g
      simp [dotProduct, Fin.sum_univ_succ, skew, Matrix.mulVec, cross_apply]
      ring
    rw [List.map_cons, List.sum_cons, List.map_cons, List.sum_cons, Pi.add_apply, ih, hb]

lemma smooth_pull {bs : List (Body × (Y n → BodyDyn n))} (h : ∀ x ∈ bs, SB x.2) (γ : ℝ) (up : Vec3) (m : Body → ℝ) (c : Body → Vec3) :
    SV fun z => weightPull γ up m c (bs.map fun x => (x.1, x.2 z)) := by
  intro e
  unfold weightPull
  simp only [List.map_map, Function.comp_def]
  induction bs with
  | nil => exact contDiff_const
  | cons x bs ih =>
    simp only [List.map_cons, List.sum_cons]
    refine ContDiff.add ?_ (ih fun y hy => h y (by simp [hy]))
    have hx := h x (by simp)
    have hv : SV fun z => (x.2 z).jac *ᵥ (Pi.single e 1 : Fin n → ℝ) := hx.jac.mulVec (SV.const _)
    have hc := smooth_cross hv.ang (c x.1)
    have hr := hx.pose.rot.mulVec (hv.lin.add hc)
    refine contDiff_const.mul ?_
    simp only [dotProduct]
    exact ContDiff.sum fun i _ => contDiff_const.mul (hr i)

/-- the forces: those of weight at the state `z`, the others at `x`, `u` -/
noncomputable def mixed {σ : Type} (up : Vec3) (m : Body → ℝ) (c : Body → Vec3) (w : MWorld n σ) (z : Y n) (x u : Fin n → ℝ) : LibCtrl → (Fin n → ℝ)
  | .weight γ => weightPull γ up m c (flyBodies w z.1 z.2.1 z.2.2)
  | .pd js g => pdForce g (dofsOf w js) x u

lemma mixed_same {σ : Type} (up : Vec3) (m : Body → ℝ) (c : Body → Vec3) (w : MWorld n σ) (x : Fin n → ℝ) (P : Fin n → Fin 4 → Fin 4 → ℝ) (u : Fin n → ℝ) :
    mixed up m c w (x, P, u) x u = flyForce up m c w x P u := by
  funext y
  cases y <;> rfl

lemma mixed_form {σ : Type} (up : Vec3) (m : Body → ℝ) (c : Body → Vec3) (w : MWorld n σ) : ∀ cs : List LibCtrl,
    ∃ (b : Y n → Fin n → ℝ) (K D : Matrix (Fin n) (Fin n) ℝ), SV b ∧ ∀ z x u, (cs.map (mixed up m c w z x u)).sum = b z - K *ᵥ x - D *ᵥ u
  | [] => ⟨fun _ => 0, 0, 0, SV.const _, fun z x u => by simp⟩
  | y :: cs => by
    obtain ⟨b, K, D, hb, hf⟩ := mixed_form up m c w cs
    have hc : ∃ (b : Y n → Fin n → ℝ) (K D : Matrix (Fin n) (Fin n) ℝ), SV b ∧ ∀ z x u, mixed up m c w z x u y = b z - K *ᵥ x - D *ᵥ u := by
      cases y with
      | weight γ =>
        obtain ⟨bs, h1, h2⟩ := smooth_bodies w
        refine ⟨fun z => weightPull γ up m c (flyBodies w z.1 z.2.1 z.2.2), 0, 0, ?_, fun z x u => by simp [mixed]⟩
        simp only [h2]
        exact smooth_pull h1 γ up m c
      | pd js g => exact ⟨fun _ => _, _, _, SV.const _, fun z x u => pd_form g (dofsOf w js) x u⟩
    obtain ⟨b', K', D', hb', hf'⟩ := hc
    refine ⟨fun z => b' z + b z, K' + K, D' + D, hb'.add hb, fun z x u => ?_⟩
    rw [List.map_cons, List.sum_cons, hf, hf', Matrix.add_mulVec, Matrix.add_mulVec]
    funext i
    simp only [Pi.add_apply, Pi.sub_apply]
    ring

/-- what does not change during a run -/
structure Fixed (m : Body → ℝ) (c : Body → Vec3) (w : MWorld n Unit) : Prop where
  links : ∀ l ∈ w.tree.links, l.start + l.att.ndof ≤ n ∧ RigidLink l
  num : Numbered 0 w.tree.links
  bodies : ∀ b ∈ w.tree.bodies, (∃ I, IsRigidMass b.mass (m b) (c b) I) ∧ 0 ≤ m b
  cons : w.cons = []

lemma Fixed.started {m : Body → ℝ} {c : Body → Vec3} {w w0 : MWorld n Unit} (hw : FlyingWorld m c w) (h : Started w w0) : Fixed m c w0 := by
  refine ⟨fun l hl => ⟨bound_of_vel (h.vel l hl), ?_⟩, h.numbered, ?_, by rw [h.cons, hw.cons]⟩
  · obtain ⟨l0, hl0, he⟩ := h.tree.mem hl
    have h2 := hw.links l0 hl0
    rw [he]
    exact ⟨h2.bpose0, h2.bpose1, h2.free⟩
  · rw [← h.tree.links.2]
    exact hw.bodies

lemma pos_at {q v : Fin n → ℝ} {Q : Fin n → Fin 4 → Fin 4 → ℝ} {l : MLink} (hb : l.start + l.att.ndof ≤ n) : HasPos q (flyAt q Q v l) := by
  obtain ⟨att, start, b0, b1⟩ := l
  cases att with
  | lin k p dp =>
    refine ⟨hb, ?_⟩
    have hb : start + k.ndof ≤ n := hb
    funext i
    simp only [entry, slice]
    rw [dif_pos (by omega)]
    rfl
  | free H T => trivial
  | fixed => trivial

lemma dofs_at {σ : Type} {w w0 : MWorld n σ} {q v : Fin n → ℝ} {Q : Fin n → Fin 4 → Fin 4 → ℝ} (h : w.tree = w0.tree.map (flyAt q Q v) id) (js : List ℕ) :
    dofsOf w js = dofsOf w0 js := by
  unfold dofsOf
  rw [h]
  congr 1
  funext i
  rw [links_map, List.getElem?_map]
  cases w0.tree.links[i]? with
  | none => rfl
  | some l =>
    obtain ⟨att, start, b0, b1⟩ := l
    cases att <;> rfl

/-- the values of the controllers -/
lemma vals_at {up : Vec3} {m : Body → ℝ} {c : Body → Vec3} {w0 w a : MWorld n Unit} {q v : Fin n → ℝ} {Q : Fin n → Fin 4 → Fin 4 → ℝ} {dt : ℝ} (h0 : Fixed m c w0)
    (ht : w.tree = w0.tree.map (flyAt q Q v) id) (h1 : a.tree = w.tree) (h3 : a.dyn = flyBodies w0 q Q v) (v' : Fin n → ℝ) {l : List LibCtrl} {vals : List (CtrlVal n)}
    (hl : ∀ x ∈ l, PlainCtrl x) (hv : List.Forall₂ (fun x v => LibCtrl.update up a dt x = .ok v) l vals) :
    (vals.map (·.gforce)).sum + (vals.map (·.impedance)).sum *ᵥ v' = (l.map (mixed up m c w0 (q, Q, v) (q + dt • v') v')).sum := by
  have hlinks : ∀ l ∈ w.tree.links, HasPos q l := by
    intro l hl
    rw [ht, links_map] at hl
    obtain ⟨l0, hl0, rfl⟩ := List.mem_map.mp hl
    exact pos_at (h0.links l0 hl0).1
  have hdofs : ∀ js, dofsOf w js = dofsOf w0 js := dofs_at ht
  induction hv with
  | nil => simp
  | @cons x val l vals h1' _ ih =>
    have ih := ih fun y hy => hl y (by simp [hy])
    have h2' : val.gforce + val.impedance *ᵥ v' = mixed up m c w0 (q, Q, v) (q + dt • v') v' x := by
      cases x with
      | weight γ =>
        have h3' : weightUpdateE γ up a.dyn = .ok val := h1'
        rw [h3] at h3'
        refine pull_at (fun x hx => h0.bodies _ ?_) h3' _
        have := mem_dyn (w := ({ w0 with tree := w0.tree.map (flyAt q Q v) id, gvel := v } : MWorld n Unit)) hx
        dsimp only at this
        rwa [bodies_map] at this
      | pd js g =>
        have h3' : pdUpdate n g (pdRead a js) dt = .ok val := h1'
        have e : pdRead a js = pdRead w js := by unfold pdRead; rw [h1]
        rw [e] at h3'
        have hn := pdDofMap_nodup h0.num (hl (.pd js g) (by simp))
        rw [← dofsOf_read, ← hdofs] at hn
        have := pd_force hlinks h3' hn v'
        rw [this, hdofs]
        rfl
    simp only [List.map_cons, List.sum_cons]
    rw [← h2', ← ih, Matrix.add_mulVec]
    abel

/-- one step -/
lemma step_at {up : Vec3} {m : Body → ℝ} {c : Body → Vec3} {cs : List LibCtrl} {dt : ℝ} {w0 w s w' : MWorld n Unit} {q : Fin n → ℝ} {Q : Fin n → Fin 4 → Fin 4 → ℝ}
    (h0 : Fixed m c w0) (hg : ∀ y ∈ cs, PlainCtrl y) (ht : w.tree = w0.tree.map (flyAt q Q w.gvel) id) (hc : w.cons = []) (h : WStep (libPlug n up cs) dt w s w') :
    w'.tree = w0.tree.map (flyAt (q + dt • w'.gvel) (moved dt Q w'.gvel) w'.gvel) id ∧ w'.cons = [] ∧
    worldMass (flyBodies w0 q Q w.gvel) *ᵥ (w'.gvel - w.gvel) + dt • ((worldViscosity (flyBodies w0 q Q w.gvel) + worldNleffects (flyBodies w0 q Q w.gvel)) *ᵥ w'.gvel) =
      dt • (cs.map (mixed up m c w0 (q, Q, w.gvel) (q + dt • w'.gvel) w'.gvel)).sum := by
  obtain ⟨vals, F, hseen, heq⟩ := h.motion
  have hF : F = 0 ∧ s.cons = [] := by
    obtain ⟨b, -, -, -, -, hb⟩ := hseen.cons
    rw [hc, List.map_nil] at hb
    generalize hc : s.cons = l at hb
    cases hb
    exact ⟨rfl, rfl⟩
  have hd : worldDynamic n (linksOf w) = flyBodies w0 q Q w.gvel := by
    unfold flyBodies linksOf
    rw [ht]
  have htr := h.tree
  rw [ht] at htr
  refine ⟨tree_moved (fun l hl => (h0.links l hl).1) htr, by rw [h.cons, hF.2], ?_⟩
  obtain ⟨a, h1, h2, h3, h4, h5, h6, h7⟩ := hseen.ctrl
  have hv : List.Forall₂ (fun x v => LibCtrl.update up a dt x = .ok v) cs vals := by
    simp only [libPlug] at h7
    cases ha : askAll up a dt cs with
    | error e => rw [ha] at h7; cases h7
    | ok vs =>
      rw [ha] at h7
      obtain ⟨-, rfl⟩ := Prod.mk.inj (Except.ok.inj h7)
      exact askAll_inv ha
  rw [← vals_at h0 ht h1 (by rw [h3, hseen.dyn, hd]) w'.gvel hg hv]
  unfold EquationOfMotion at heq
  rw [hseen.nleffects, hseen.mass, hseen.viscosity, hseen.dyn, hF.1, add_zero, hd] at heq
  have := congrArg (dt • ·) heq
  simp only [Matrix.sub_mulVec, Matrix.add_mulVec, Matrix.smul_mulVec, smul_sub, smul_add, smul_smul, mul_inv_cancel₀ h.pos.ne', one_smul] at this
  rw [Matrix.mulVec_sub, Matrix.add_mulVec, smul_add, smul_add]
  rw [sub_eq_iff_eq_add] at this
  have h2' : ∀ A B N C D E : Fin n → ℝ, A + B + N = C + D + E → A - C + (B + N) = D + E := by
    intro A B N C D E e
    rw [sub_add_eq_add_sub, ← add_assoc, e]
    abel
  exact h2' _ _ _ _ _ _ this

/-- every state of a run is near the exact motion -/
lemma evolves_near {up : Vec3} {m : Body → ℝ} {c : Body → Vec3} {cs : List LibCtrl} {w0 : MWorld n Unit} {t0 T h C : ℝ} {y : ℝ → Y n} (h0 : Fixed m c w0)
    (hg : ∀ y ∈ cs, PlainCtrl y)
    {Near : ℝ → Y n → Prop}
    (hstep : ∀ t t' q Q v v', t ∈ Set.Icc t0 T → t' ∈ Set.Icc t0 T → t < t' → t' - t ≤ h → Near t (q, Q, v) →
        worldMass (flyBodies w0 q Q v) *ᵥ (v' - v) + (t' - t) • ((worldViscosity (flyBodies w0 q Q v) + worldNleffects (flyBodies w0 q Q v)) *ᵥ v') =
          (t' - t) • (cs.map (mixed up m c w0 (q, Q, v) (q + (t' - t) • v') v')).sum →
        Near t' (q + (t' - t) • v', moved (t' - t) Q v', v'))
    (hclose : ∀ t z, t ∈ Set.Icc t0 T → Near t z → ‖z - y t‖ ≤ C)
    {tl : List ℝ} {w w' : MWorld n Unit} {seen : List (ℝ × ℝ × MWorld n Unit)} (he : Evolves (libPlug n up cs) tl w seen w') :
    ∀ {q : Fin n → ℝ} {Q : Fin n → Fin 4 → Fin 4 → ℝ} {t t' : ℝ}, w.tree = w0.tree.map (flyAt q Q w.gvel) id → w.cons = [] → tl.head? = some t →
      tl.getLast? = some t' → (∀ τ ∈ tl, τ ∈ Set.Icc t0 T) → tl.IsChain (fun a b => b - a ≤ h) → Near t (q, Q, w.gvel) →
      (t' ∈ Set.Icc t0 T ∧ FlyNear w0 (y t').1 (y t').2.1 (y t').2.2 C w') ∧ ∀ s ∈ seen, s.1 ∈ Set.Icc t0 T ∧ FlyNear w0 (y s.1).1 (y s.1).2.1 (y s.1).2.2 C s.2.2 := by
  have hnear : ∀ (w : MWorld n Unit) (q : Fin n → ℝ) (Q : Fin n → Fin 4 → Fin 4 → ℝ) (t : ℝ), w.tree = w0.tree.map (flyAt q Q w.gvel) id → ‖(q, Q, w.gvel) - y t‖ ≤ C →
      FlyNear w0 (y t).1 (y t).2.1 (y t).2.2 C w := by
    intro w q Q t hq hn
    have n1 := (norm_fst_le _).trans hn
    have n2 := (norm_fst_le _).trans ((norm_snd_le _).trans hn)
    have n3 := (norm_snd_le _).trans ((norm_snd_le _).trans hn)
    refine ⟨q, Q, hq, fun d => (norm_le_pi_norm (q - (y t).1) d).trans n1, fun d i j => ?_, fun d => (norm_le_pi_norm (w.gvel - (y t).2.2) d).trans n3⟩
    exact (norm_le_pi_norm ((Q - (y t).2.1) d i) j).trans ((norm_le_pi_norm ((Q - (y t).2.1) d) i).trans ((norm_le_pi_norm (Q - (y t).2.1) d).trans n2))
  induction he with
  | done τ w =>
    intro q Q t t' hq hc h1 h2 hT _ hn
    obtain rfl : τ = t := by simpa using h1
    obtain rfl : τ = t' := by simpa using h2
    exact ⟨⟨hT τ (by simp), hnear _ _ _ _ hq (hclose _ _ (hT τ (by simp)) hn)⟩, by simp⟩
  | @step τ τ' ts w s w1 w' seen hs hrest ih =>
    intro q Q t t' hq hc h1 h2 hT hch hn
    obtain rfl : τ = t := by simpa using h1
    obtain ⟨g1, g2, g3⟩ := step_at h0 hg hq hc hs
    obtain ⟨hd, hch'⟩ := List.isChain_cons_cons.mp hch
    have hn' := hstep τ τ' q Q w.gvel w1.gvel (hT τ (by simp)) (hT τ' (by simp)) (by linarith [hs.pos]) hd hn g3
    obtain ⟨k1, k2⟩ := ih g1 g2 rfl (by rw [← h2, List.getLast?_cons_cons]) (fun y hy => hT y (by simp at hy ⊢; tauto)) hch' hn'
    refine ⟨k1, ?_⟩
    intro s' hs'
    rcases List.mem_cons.mp hs' with rfl | hs'
    · obtain ⟨vals, F, hseen, -⟩ := hs.motion
      refine ⟨hT τ (by simp), hnear _ q Q _ ?_ ?_⟩
      · rw [hseen.tree, hseen.gvel]
        exact hq
      · rw [hseen.gvel]
        exact hclose _ _ (hT τ (by simp)) hn
    · exact k2 s' hs'

/-- the steps as functions -/
lemma near_exists {up : Vec3} {m : Body → ℝ} {c : Body → Vec3} {cs : List LibCtrl} {w0 : MWorld n Unit} {t0 T : ℝ} {x u a : ℝ → Fin n → ℝ} {P : ℝ → Fin n → Fin 4 → Fin 4 → ℝ} (hT : t0 ≤ T) (hx : FlyPath up m c cs w0 t0 T x P u a) :
    ∃ (M B N : Y n → Matrix (Fin n) (Fin n) ℝ) (K D : Matrix (Fin n) (Fin n) ℝ) (b : Y n → Fin n → ℝ), (∀ z q' v', (cs.map (mixed up m c w0 z q' v')).sum = b z - K *ᵥ q' - D *ᵥ v') ∧ (∀ z, M z = worldMass (flyBodies w0 z.1 z.2.1 z.2.2)) ∧
      (∀ z, B z = worldViscosity (flyBodies w0 z.1 z.2.1 z.2.2)) ∧ (∀ z, N z = worldNleffects (flyBodies w0 z.1 z.2.1 z.2.2)) ∧
      ∃ A ≥ 0, ∃ L ≥ 0, ∃ h0 > 0, ∀ t dt h z, t0 ≤ t → 0 < dt → dt ≤ h → h ≤ h0 → t + dt ≤ T → ‖z - (x t, P t, u t)‖ ≤ OneStep.bound A L h (t - t0) →
        (dt, z) ∈ Good M B N K D b ∧ ‖z + dt • slope M B N K D b (dt, z) - (x (t + dt), P (t + dt), u (t + dt))‖ ≤ OneStep.bound A L h (t + dt - t0) := by
  obtain ⟨bs, h1, h2⟩ := smooth_bodies w0
  obtain ⟨b, K, D, hb, hf⟩ := mixed_form up m c w0 cs
  refine ⟨fun z => worldMass (flyBodies w0 z.1 z.2.1 z.2.2), fun z => worldViscosity (flyBodies w0 z.1 z.2.1 z.2.2), fun z => worldNleffects (flyBodies w0 z.1 z.2.1 z.2.2),
    K, D, b, hf, fun _ => rfl, fun _ => rfl, fun _ => rfl, ?_⟩
  have hM : SM fun z : Y n => worldMass (flyBodies w0 z.1 z.2.1 z.2.2) := by simp only [h2]; exact Smooth.mass h1
  have hB : SM fun z : Y n => worldViscosity (flyBodies w0 z.1 z.2.1 z.2.2) := by simp only [h2]; exact Smooth.viscosity h1
  have hN : SM fun z : Y n => worldNleffects (flyBodies w0 z.1 z.2.1 z.2.2) := by simp only [h2]; exact Smooth.nleffects h1
  refine OneStep.converges (y := fun t => (x t, P t, u t)) hT (fun t ht => ?_) fun t ht => local_slope hM hB hN hb (hx.inertia t ht)
  have e := slope_zero (M := fun z => worldMass (flyBodies w0 z.1 z.2.1 z.2.2)) (B := fun z => worldViscosity (flyBodies w0 z.1 z.2.1 z.2.2))
    (N := fun z => worldNleffects (flyBodies w0 z.1 z.2.1 z.2.2)) (K := K) (D := D) (b := b) (x := x t) (P := P t) (u := u t) (a := a t) (hx.inertia t ht) (by
      have h3 := hx.law t ht
      rw [← mixed_same, hf] at h3
      exact h3)
  rw [e]
  have hP := hasDerivAt_pi.mpr fun d => hasDerivAt_pi.mpr fun i => hasDerivAt_pi.mpr fun j => hx.dP t ht d i j
  exact (hx.dx t ht).prodMk (hP.prodMk (hx.du t ht))

/-- simulations are near the exact motion -/
lemma converges {n : ℕ} {up : Vec3} {m : Body → ℝ} {c : Body → Vec3} {cs : List LibCtrl} {w w0 : MWorld n Unit} {t0 T : ℝ} {x u a : ℝ → Fin n → ℝ} {P : ℝ → Fin n → Fin 4 → Fin 4 → ℝ}
    (hw : FlyingWorld m c w) (hg : ∀ y ∈ cs, PlainCtrl y) (hi : Mech.init w = .ok w0) (hx : FlyPath up m c cs w0 t0 T x P u a) :
    ∃ C ≥ 0, ∃ hmax > 0, ∀ (h : ℝ) (tl : List ℝ) (k : ℕ) (tr : List (Ev (MWorld n Unit))) (w' : MWorld n Unit) (t' : ℝ), 0 ≤ h → h ≤ hmax → tl.head? = some t0 →
      (∀ t ∈ tl, t ≤ T) → tl.IsChain (fun t1 t2 => t2 - t1 ≤ h) → simulate (engine (libPlug n up cs)) w tl (.list k) = (tr, .ok (w', t')) →
      tl.getLast? = some t' ∧ (t' ∈ Set.Icc t0 T ∧ FlyNear w0 (x t') (P t') (u t') (C * h) w') ∧
      ∃ seen, tr = runCalls k t0 w0 tl seen ∧ ∀ s ∈ seen, s.1 ∈ Set.Icc t0 T ∧ FlyNear w0 (x s.1) (P s.1) (u s.1) (C * h) s.2.2 := by
  by_cases hT : t0 ≤ T
  swap
  · refine ⟨0, le_rfl, 1, one_pos, ?_⟩
    intro h tl k tr w' t' _ _ hhead hT' _ _
    exact absurd (hT' t0 (List.mem_of_mem_head? hhead)) hT
  obtain ⟨w0', h1, hst⟩ := init_started hw.dofs
  obtain rfl : w0 = w0' := Except.ok.inj (hi.symm.trans h1)
  have hfix := Fly.Fixed.started hw hst
  obtain ⟨M, B, N, K, D, b, ef, eM, eB, eN, A, hA, L, hL, hmax, hpos, hconv⟩ := near_exists hT hx
  have hτ : 0 ≤ T - t0 := by linarith
  refine ⟨A * (T - t0) * Real.exp (L * (T - t0)), by positivity, hmax, hpos, ?_⟩
  intro h tl k tr w' t' hh hhm hhead hTl hch hrun
  obtain ⟨t0', rest, w0', seen, e1, e2, e3, e4, e5, e6⟩ := (C45_run ..).mp hrun
  obtain rfl : w0 = w0' := Except.ok.inj (hi.symm.trans e3)
  obtain rfl : t0 = t0' := by rw [e1] at hhead; simpa using hhead.symm
  have hev := steps_evolves e4 hst.vel
  have hIcc : ∀ τ ∈ tl, τ ∈ Set.Icc t0 T := by
    intro τ hτ
    refine ⟨?_, hTl τ hτ⟩
    rw [e1] at hτ e2
    rcases List.mem_cons.mp hτ with rfl | hτ
    · exact le_rfl
    · exact ((List.pairwise_cons.mp e2).1 τ hτ).le
  have htree : w0.tree = w0.tree.map (flyAt (x t0) (P t0) w0.gvel) id :=
    (Turn.map_self fun l hl => flyAt_self (hx.pos l hl) (hx.pose l hl) (hst.vel l hl)).symm
  obtain ⟨k1, k2⟩ := Fly.evolves_near (y := fun t => (x t, P t, u t)) (T := T) (C := A * (T - t0) * Real.exp (L * (T - t0)) * h) hfix hg
    (Near := fun t z => ‖z - (x t, P t, u t)‖ ≤ OneStep.bound A L h (t - t0)) (by
      intro t τ q Q v v' ht ht' htt hth hnear eq2
      obtain ⟨d1, d2⟩ := hconv t (τ - t) h (q, Q, v) ht.1 (by linarith) hth hhm (by linarith [ht'.2]) hnear
      have := slope_step (M := M) (B := B) (N := N) (K := K) (D := D) (b := b) (dt := τ - t) (by linarith) d1 (by rw [eM, eB, eN, ← ef]; exact eq2)
      rw [← this, add_sub_cancel] at d2
      exact d2) (by
      intro t z ht hz
      refine hz.trans ?_
      unfold OneStep.bound
      have f1 : Real.exp (L * (t - t0)) ≤ Real.exp (L * (T - t0)) := Real.exp_le_exp.mpr (mul_le_mul_of_nonneg_left (by linarith [ht.2]) hL)
      have f2 : A * h * (t - t0) ≤ A * h * (T - t0) := mul_le_mul_of_nonneg_left (by linarith [ht.2]) (by positivity)
      have f3 : 0 ≤ A * h * (T - t0) := by positivity
      calc _ ≤ A * h * (T - t0) * Real.exp (L * (T - t0)) := mul_le_mul f2 f1 (Real.exp_nonneg _) f3
        _ = _ := by ring) hev htree hfix.cons hhead e6 hIcc hch (by rw [hx.vel]; simp [OneStep.bound])
  exact ⟨e6, k1, seen, e5, k2⟩

end Fly

/-- C133.  Let `x`, `P`, `u` be the exact motion of a mechanism from `t0` to `T`: any tree of bodies with any joints, free ones included, with its weight, its
viscosity and its proportional-derivative controllers, without constraints.  There is a number `C` such that every simulation from `t0`, at most until `T`, with small enough steps, of at most `h`, regular or not,
is at most `C h` away from the exact motion: coordinates, poses of the free joints and velocities, at the end and each time that observers look. -/
theorem C133_converges {n : ℕ} {up : Vec3} {m : Body → ℝ} {c : Body → Vec3} {cs : List LibCtrl} {w w0 : MWorld n Unit} {t0 T : ℝ} {x u a : ℝ → Fin n → ℝ} {P : ℝ → Fin n → Fin 4 → Fin 4 → ℝ}
    (hw : FlyingWorld m c w) (hg : ∀ y ∈ cs, PlainCtrl y) (hi : Mech.init w = .ok w0) (hx : FlyPath up m c cs w0 t0 T x P u a) :
    ∃ C ≥ 0, ∃ hmax > 0, ∀ (h : ℝ) (tl : List ℝ) (k : ℕ) (tr : List (Ev (MWorld n Unit))) (w' : MWorld n Unit) (t' : ℝ), 0 ≤ h → h ≤ hmax → tl.head? = some t0 →
      (∀ t ∈ tl, t ≤ T) → tl.IsChain (fun t1 t2 => t2 - t1 ≤ h) → simulate (engine (libPlug n up cs)) w tl (.list k) = (tr, .ok (w', t')) →
      tl.getLast? = some t' ∧ FlyNear w0 (x t') (P t') (u t') (C * h) w' ∧
      ∃ seen, tr = runCalls k t0 w0 tl seen ∧ ∀ s ∈ seen, FlyNear w0 (x s.1) (P s.1) (u s.1) (C * h) s.2.2 := by
  obtain ⟨C, hC, hmax, hpos, hs⟩ := Fly.converges (up := up) hw hg hi hx
  refine ⟨C, hC, hmax, hpos, fun h tl k tr w' t' hh hhm hhead hTl hch hrun => ?_⟩
  obtain ⟨e1, e2, seen, e3, e4⟩ := hs h tl k tr w' t' hh hhm hhead hTl hch hrun
  exact ⟨e1, e2.2, seen, e3, fun s hs => (e4 s hs).2⟩

end Arboris
