import Verif.Props.Converge
import Verif.Proofs.OneStep
import Verif.Proofs.Smooth
import Mathlib.Analysis.Calculus.ContDiff.RCLike

/-!
# C131: simulations converge to the exact motion of mechanisms which rotate
-/

namespace Arboris
open Matrix Spec Mech Build Sim

/-! ### specification -/

/-- the joint at the coordinates `x` with the velocities `u` -/
noncomputable def Spec.jointAt {n : ℕ} (x u : Fin n → ℝ) (l : MLink) : MLink :=
  { l with att := match l.att with
      | .lin k _ _ => .lin k (fun i => entry x (l.start + i)) (fun i => entry u (l.start + i))
      | a => a }

/-- the world at the coordinates `x` with the velocities `u` -/
noncomputable def Spec.worldAt {n : ℕ} {σ : Type} (w : MWorld n σ) (x u : Fin n → ℝ) : MWorld n σ :=
  { w with tree := w.tree.map (jointAt x u) id, gvel := u }

/-- the bodies of the world at the coordinates `x` with the velocities `u` -/
noncomputable def Spec.bodiesAt {n : ℕ} {σ : Type} (w : MWorld n σ) (x u : Fin n → ℝ) : List (Body × BodyDyn n) :=
  worldDynamic n (linksOf (worldAt w x u))

/-- the force of weight at a dof is the power of weight when the speed of this dof is one (and the others zero): `up` is upwards, `γ` the (negative)
acceleration of gravity, `c` the center of mass in the axes of the body, which moves at `v + ω × c` -/
noncomputable def Spec.weightPull {n : ℕ} (γ : ℝ) (up : Vec3) (m : Body → ℝ) (c : Body → Vec3) (bs : List (Body × BodyDyn n)) : Fin n → ℝ := fun e =>
  (bs.map fun x => m x.1 * γ * (up ⬝ᵥ (rot x.2.pose *ᵥ (lin (x.2.jac *ᵥ Pi.single e 1) + ang (x.2.jac *ᵥ Pi.single e 1) ⨯₃ c x.1)))).sum

/-- force of a controller when the coordinates are `x` and the velocities `u` -/
noncomputable def Spec.forceAt {n : ℕ} {σ : Type} (up : Vec3) (m : Body → ℝ) (c : Body → Vec3) (w : MWorld n σ) (x u : Fin n → ℝ) : LibCtrl → (Fin n → ℝ)
  | .weight γ => weightPull γ up m c (bodiesAt w x u)
  | .pd js g => pdForce g (dofsOf w js) x u

/-- `x`, `u`, `a` (coordinates, velocities, accelerations, functions of time) are the motion of the mechanism from `t0` to `T`: it starts as `w` and satisfies
the equations of motion (mass matrix, centrifugal and gyroscopic effects, viscosity; the forces are those of the controllers) at every time; the mass
matrix stays invertible -/
structure Spec.ExactPath {n : ℕ} (up : Vec3) (m : Body → ℝ) (c : Body → Vec3) (cs : List LibCtrl) (w : MWorld n Unit) (t0 T : ℝ) (x u a : ℝ → Fin n → ℝ) : Prop where
  pos : ∀ l ∈ w.tree.links, HasPos (x t0) l
  vel : u t0 = w.gvel
  dx : ∀ t ∈ Set.Icc t0 T, HasDerivAt x (u t) t
  du : ∀ t ∈ Set.Icc t0 T, HasDerivAt u (a t) t
  law : ∀ t ∈ Set.Icc t0 T, worldMass (bodiesAt w (x t) (u t)) *ᵥ a t + worldNleffects (bodiesAt w (x t) (u t)) *ᵥ u t +
    worldViscosity (bodiesAt w (x t) (u t)) *ᵥ u t = (cs.map (forceAt up m c w (x t) (u t))).sum
  inertia : ∀ t ∈ Set.Icc t0 T, (worldMass (bodiesAt w (x t) (u t))).det ≠ 0

/-- a world without free joints nor constraints, of bodies with the mass `m` and center of mass `c` -/
structure Spec.JointedWorld {n : ℕ} (m : Body → ℝ) (c : Body → Vec3) (w : MWorld n Unit) : Prop where
  dofs : ndof w.tree = n
  links : ∀ l ∈ w.tree.links, NotFree l ∧ RigidLink l
  bodies : ∀ b ∈ w.tree.bodies, (∃ I, IsRigidMass b.mass (m b) (c b) I) ∧ 0 ≤ m b
  cons : w.cons = []

/-- a `WeightController`; or a `ProportionalDerivativeController` of different joints -/
def Spec.PlainCtrl : LibCtrl → Prop
  | .weight _ => True
  | .pd js _ => js.Nodup

/-! ### smoothness -/

namespace Turn
open Smooth

variable {n : ℕ}

/-- coordinates and velocities -/
abbrev Z (n : ℕ) := (Fin n → ℝ) × (Fin n → ℝ)

lemma smooth_fst : SV fun z : Z n => z.1 := fun i => by fun_prop
lemma smooth_snd : SV fun z : Z n => z.2 := fun i => by fun_prop

lemma smooth_entry {E : Type*} [NormedAddCommGroup E] [NormedSpace ℝ E] {x : E → Fin n → ℝ} (hx : SV x) (d : ℕ) : ContDiff ℝ 1 fun z => entry (x z) d := by
  unfold entry
  by_cases h : d < n
  · simp only [dif_pos h]
    exact hx _
  · simp only [dif_neg h]
    exact contDiff_const

/-- the link as `update_dynamic` reads it -/
noncomputable def linkAt (z : Z n) (l : MLink) : Link :=
  { k := (jointAt z.1 z.2 l).att.ndof, start := (jointAt z.1 z.2 l).start, joint := (jointAt z.1 z.2 l).att.val, bpose0 := (jointAt z.1 z.2 l).bpose0, bpose1 := (jointAt z.1 z.2 l).bpose1 }

lemma smooth_link (l : MLink) : SL fun z : Z n => linkAt z l := by
  obtain ⟨att, start, b0, b1⟩ := l
  cases att with
  | lin k q dq =>
    exact ⟨k.ndof, start, fun z => k.val (fun i => entry z.1 (start + i)) (fun i => entry z.2 (start + i)), b0, b1,
      val k (fun i => smooth_entry smooth_fst _) (fun i => smooth_entry smooth_snd _), fun z => rfl⟩
  | free H T => exact ⟨_, start, fun _ => _, b0, b1, val_const _, fun z => rfl⟩
  | fixed => exact ⟨_, start, fun _ => _, b0, b1, val_const _, fun z => rfl⟩

lemma map_map' {L L' L'' B : Type} (f : L → L') (g : L' → L'') (F : Forest L B) : (F.map f id).map g id = F.map (fun l => g (f l)) id := by
  induction F with
  | nil => rfl
  | cons l b ch sib h1 h2 => simp [Forest.map, h1, h2]

/-- the stored values of the bodies are smooth functions of the coordinates and velocities -/
lemma smooth_bodies {σ : Type} (w : MWorld n σ) : ∃ bs : List (Body × (Z n → BodyDyn n)), (∀ x ∈ bs, SB x.2) ∧
    ∀ z : Z n, bodiesAt w z.1 z.2 = bs.map fun x => (x.1, x.2 z) := by
  obtain ⟨bs, h1, h2⟩ := Smooth.updateDynamic (E := Z n) (n := n) linkAt w.tree (fun l _ => smooth_link l) (s := fun _ => groundDyn n)
    ⟨SM.const _, SM.const _, SM.const _, SV.const _⟩
  refine ⟨bs, fun x hx => (h1 x hx).1, fun z => ?_⟩
  rw [← h2 z, bodiesAt, worldDynamic, linksOf, worldAt]
  dsimp only
  rw [map_map']
  rfl

lemma smooth_cross {E : Type*} [NormedAddCommGroup E] [NormedSpace ℝ E] {y : E → Vec3} (hy : SV y) (c : Vec3) : SV fun z => y z ⨯₃ c := by
  have h0 := hy 0
  have h1 := hy 1
  have h2 := hy 2
  intro i
  fin_cases i <;> simp [cross_apply] <;> fun_prop

lemma smooth_pull {bs : List (Body × (Z n → BodyDyn n))} (h : ∀ x ∈ bs, SB x.2) (γ : ℝ) (up : Vec3) (m : Body → ℝ) (c : Body → Vec3) :
    SV fun z => weightPull γ up m c (bs.map fun x => (x.1, x.2 z)) := by
  intro e
  unfold weightPull
  simp only [List.map_map, Function.comp_def]
  induction bs with
  | nil => exact contDiff_const
  | cons x bs ih =>
    simp only [List.map_cons, List.sum_cons]
    refine ContDiff.add ?_ (ih fun y hy => h y (by simp [hy]))
    have hx := h x (by simp)
    have hv : SV fun z => (x.2 z).jac *ᵥ (Pi.single e 1 : Fin n → ℝ) := hx.jac.mulVec (SV.const _)
    have hc := smooth_cross hv.ang (c x.1)
    have hr := hx.pose.rot.mulVec (hv.lin.add hc)
    refine contDiff_const.mul ?_
    simp only [dotProduct]
    exact ContDiff.sum fun i _ => contDiff_const.mul (hr i)

/-- the forces: those of weight at the coordinates `z`, the others at `x`, `u` -/
noncomputable def mixed {σ : Type} (up : Vec3) (m : Body → ℝ) (c : Body → Vec3) (w : MWorld n σ) (z : Z n) (x u : Fin n → ℝ) : LibCtrl → (Fin n → ℝ)
  | .weight γ => weightPull γ up m c (bodiesAt w z.1 z.2)
  | .pd js g => pdForce g (dofsOf w js) x u

lemma mixed_same {σ : Type} (up : Vec3) (m : Body → ℝ) (c : Body → Vec3) (w : MWorld n σ) (x u : Fin n → ℝ) : mixed up m c w (x, u) x u = forceAt up m c w x u := by
  funext y
  cases y <;> rfl

lemma mixed_form {σ : Type} (up : Vec3) (m : Body → ℝ) (c : Body → Vec3) (w : MWorld n σ) : ∀ cs : List LibCtrl,
    ∃ (b : Z n → Fin n → ℝ) (K D : Matrix (Fin n) (Fin n) ℝ), SV b ∧ ∀ z x u, (cs.map (mixed up m c w z x u)).sum = b z - K *ᵥ x - D *ᵥ u
  | [] => ⟨fun _ => 0, 0, 0, SV.const _, fun z x u => by simp⟩
  | y :: cs => by
    obtain ⟨b, K, D, hb, hf⟩ := mixed_form up m c w cs
    have hc : ∃ (b : Z n → Fin n → ℝ) (K D : Matrix (Fin n) (Fin n) ℝ), SV b ∧ ∀ z x u, mixed up m c w z x u y = b z - K *ᵥ x - D *ᵥ u := by
      cases y with
      | weight γ =>
        obtain ⟨bs, h1, h2⟩ := smooth_bodies w
        refine ⟨fun z => weightPull γ up m c (bodiesAt w z.1 z.2), 0, 0, ?_, fun z x u => by simp [mixed]⟩
        simp only [h2]
        exact smooth_pull h1 γ up m c
      | pd js g => exact ⟨fun _ => _, _, _, SV.const _, fun z x u => pd_form g (dofsOf w js) x u⟩
    obtain ⟨b', K', D', hb', hf'⟩ := hc
    refine ⟨fun z => b' z + b z, K' + K, D' + D, hb'.add hb, fun z x u => ?_⟩
    rw [List.map_cons, List.sum_cons, hf, hf', Matrix.add_mulVec, Matrix.add_mulVec]
    funext i
    simp only [Pi.add_apply, Pi.sub_apply]
    ring

/-! ### the step as a function -/

lemma smooth_det {E : Type*} [NormedAddCommGroup E] [NormedSpace ℝ E] {k : ℕ} {A : E → Matrix (Fin k) (Fin k) ℝ} (hA : SM A) : ContDiff ℝ 1 fun z => (A z).det := by
  simp only [Matrix.det_apply']
  exact ContDiff.sum fun p _ => contDiff_const.mul (contDiff_prod fun i _ => hA _ _)

lemma smooth_inv {E : Type*} [NormedAddCommGroup E] [NormedSpace ℝ E] {k : ℕ} {A : E → Matrix (Fin k) (Fin k) ℝ} (hA : SM A) {z0 : E} (h0 : (A z0).det ≠ 0) (i j : Fin k) :
    ContDiffAt ℝ 1 (fun z => (A z)⁻¹ i j) z0 := by
  simp only [Matrix.inv_def, Ring.inverse_eq_inv', Matrix.smul_apply, smul_eq_mul, Matrix.adjugate_apply]
  refine ((smooth_det hA).contDiffAt.inv h0).mul (smooth_det ?_).contDiffAt
  intro a b
  simp only [Matrix.updateRow_apply]
  by_cases h : a = j
  · simp only [if_pos h]
    exact contDiff_const
  · simp only [if_neg h]
    exact hA _ _

/-- matrix of a step -/
noncomputable def lhs (M B N K D : Z n → Matrix (Fin n) (Fin n) ℝ) (p : ℝ × Z n) : Matrix (Fin n) (Fin n) ℝ :=
  M p.2 + p.1 • (B p.2 + N p.2 + (p.1 • K p.2 + D p.2))

/-- vector of a step -/
noncomputable def rhs (B N K D : Z n → Matrix (Fin n) (Fin n) ℝ) (b : Z n → Fin n → ℝ) (p : ℝ × Z n) : Fin n → ℝ :=
  b p.2 - K p.2 *ᵥ p.2.1 - (B p.2 + N p.2 + (p.1 • K p.2 + D p.2)) *ᵥ p.2.2

/-- acceleration during a step -/
noncomputable def acc (M B N K D : Z n → Matrix (Fin n) (Fin n) ℝ) (b : Z n → Fin n → ℝ) (p : ℝ × Z n) : Fin n → ℝ := (lhs M B N K D p)⁻¹ *ᵥ rhs B N K D b p

/-- variation during a step, by unit of time -/
noncomputable def slope (M B N K D : Z n → Matrix (Fin n) (Fin n) ℝ) (b : Z n → Fin n → ℝ) (p : ℝ × Z n) : Z n :=
  (p.2.2 + p.1 • acc M B N K D b p, acc M B N K D b p)

section
variable {M B N K D : Z n → Matrix (Fin n) (Fin n) ℝ} {b : Z n → Fin n → ℝ}

lemma comp_snd {a c : Type*} {A : Z n → Matrix a c ℝ} (hA : SM A) : SM fun p : ℝ × Z n => A p.2 := fun i j => (hA i j).comp contDiff_snd

lemma smooth_lhs (hM : SM M) (hB : SM B) (hN : SM N) (hK : SM K) (hD : SM D) : SM (lhs M B N K D) :=
  (comp_snd hM).add (SM.smul contDiff_fst (((comp_snd hB).add (comp_snd hN)).add ((SM.smul contDiff_fst (comp_snd hK)).add (comp_snd hD))))

lemma smooth_rhs (hB : SM B) (hN : SM N) (hK : SM K) (hD : SM D) (hb : SV b) : SV (rhs B N K D b) := by
  have h1 : SV fun p : ℝ × Z n => p.2.1 := fun i => by fun_prop
  have h2 : SV fun p : ℝ × Z n => p.2.2 := fun i => by fun_prop
  have h3 : SV fun p : ℝ × Z n => b p.2 := fun i => (hb i).comp contDiff_snd
  exact (h3.sub ((comp_snd hK).mulVec h1)).sub ((((comp_snd hB).add (comp_snd hN)).add ((SM.smul contDiff_fst (comp_snd hK)).add (comp_snd hD))).mulVec h2)

lemma smooth_slope (hM : SM M) (hB : SM B) (hN : SM N) (hK : SM K) (hD : SM D) (hb : SV b) {p : ℝ × Z n} (hp : (lhs M B N K D p).det ≠ 0) :
    ContDiffAt ℝ 1 (slope M B N K D b) p := by
  have ha : ContDiffAt ℝ 1 (acc M B N K D b) p := by
    refine contDiffAt_pi.mpr fun i => ?_
    simp only [acc, Matrix.mulVec, dotProduct]
    exact ContDiffAt.sum fun j _ => (smooth_inv (smooth_lhs hM hB hN hK hD) hp i j).mul (smooth_rhs hB hN hK hD hb j).contDiffAt
  exact ((contDiffAt_snd.snd').add (contDiffAt_fst.smul ha)).prodMk ha

/-- around the times when the mass matrix is invertible, the steps are Lipschitz -/
lemma local_slope (hM : SM M) (hB : SM B) (hN : SM N) (hK : SM K) (hD : SM D) (hb : SV b) {z : Z n} (hz : (M z).det ≠ 0) :
    ∃ L, ∃ s ∈ nhds ((0 : ℝ), z), LipschitzOnWith L (slope M B N K D b) s ∧ s ⊆ {p | (lhs M B N K D p).det ≠ 0} := by
  have h0 : (lhs M B N K D (0, z)).det ≠ 0 := by simpa [lhs] using hz
  obtain ⟨L, s, hs, hL⟩ := (smooth_slope hM hB hN hK hD hb h0).exists_lipschitzOnWith
  have ho : {p | (lhs M B N K D p).det ≠ 0} ∈ nhds ((0 : ℝ), z) :=
    (isOpen_ne.preimage (smooth_det (smooth_lhs hM hB hN hK hD)).continuous).mem_nhds h0
  exact ⟨L, s ∩ {p | (lhs M B N K D p).det ≠ 0}, Filter.inter_mem hs ho, hL.mono Set.inter_subset_left, Set.inter_subset_right⟩

lemma slope_zero {x u a : Fin n → ℝ} (hz : (M (x, u)).det ≠ 0) (h : M (x, u) *ᵥ a + N (x, u) *ᵥ u + B (x, u) *ᵥ u = b (x, u) - K (x, u) *ᵥ x - D (x, u) *ᵥ u) :
    slope M B N K D b (0, (x, u)) = (u, a) := by
  have e : acc M B N K D b (0, (x, u)) = a := by
    unfold acc lhs rhs
    simp only [zero_smul, add_zero, zero_add]
    have e2 : b (x, u) - K (x, u) *ᵥ x - (B (x, u) + N (x, u) + D (x, u)) *ᵥ u = M (x, u) *ᵥ a := by
      rw [Matrix.add_mulVec, Matrix.add_mulVec]
      funext i
      have h1 := congrFun h i
      simp only [Pi.add_apply, Pi.sub_apply] at h1 ⊢
      linarith
    rw [e2, Matrix.mulVec_mulVec, Matrix.nonsing_inv_mul _ (isUnit_iff_ne_zero.mpr hz), Matrix.one_mulVec]
  unfold slope
  rw [e]
  simp

/-- the equation of motion has no other solution -/
lemma slope_step {dt : ℝ} (hdt : dt ≠ 0) {q v v' : Fin n → ℝ} (hp : (lhs M B N K D (dt, (q, v))).det ≠ 0)
    (h : M (q, v) *ᵥ (v' - v) + dt • ((B (q, v) + N (q, v)) *ᵥ v') = dt • (b (q, v) - K (q, v) *ᵥ (q + dt • v') - D (q, v) *ᵥ v')) :
    (q + dt • v', v') = (q, v) + dt • slope M B N K D b (dt, (q, v)) := by
  obtain ⟨g, rfl⟩ : ∃ g, v' = v + dt • g := ⟨dt⁻¹ • (v' - v), by rw [smul_smul, mul_inv_cancel₀ hdt, one_smul]; abel⟩
  have e : g = acc M B N K D b (dt, (q, v)) := by
    have h1 : lhs M B N K D (dt, (q, v)) *ᵥ g = rhs B N K D b (dt, (q, v)) := by
      have h2 := congrArg (dt⁻¹ • ·) h
      simp only [add_sub_cancel_left, smul_add, smul_smul, inv_mul_cancel₀ hdt, one_smul, Matrix.mulVec_smul] at h2
      unfold lhs rhs
      simp only [Matrix.add_mulVec, Matrix.smul_mulVec, Matrix.mulVec_add, Matrix.mulVec_smul, smul_add, smul_smul] at h2 ⊢
      have h3 := sub_eq_zero.mpr h2
      rw [← sub_eq_zero, ← h3]
      module
    unfold acc
    rw [← h1, Matrix.mulVec_mulVec, Matrix.nonsing_inv_mul _ (isUnit_iff_ne_zero.mpr hp), Matrix.one_mulVec]
  unfold slope
  rw [← e]
  rfl

end

/-! ### worlds at given coordinates -/

/-- the forces of weight are those of the model -/
lemma pull_eq {γ : ℝ} {up : Vec3} {m : Body → ℝ} {c : Body → Vec3} {bs : List (Body × BodyDyn n)} (hp : ∀ x ∈ bs, IsRigid x.2.pose)
    (hM : ∀ x ∈ bs, (∃ I, IsRigidMass x.1.mass (m x.1) (c x.1) I) ∧ 0 ≤ m x.1) {out : CtrlVal n} (ho : weightUpdateE γ up bs = .ok out) (v : Fin n → ℝ) :
    out.gforce + out.impedance *ᵥ v = weightPull γ up m c bs := by
  have hz : ∀ x ∈ bs, (∀ i j, x.1.mass i j ≤ 0) → x.1.mass *ᵥ (iadjointBody x.2.pose *ᵥ gravityTwist γ up) = 0 := by
    intro x hx hneg
    obtain ⟨⟨I, hr⟩, h0⟩ := hM x hx
    have hz : m x.1 = 0 := by
      refine le_antisymm ?_ h0
      have := hneg 3 3
      simp only [hr.eq] at this
      simpa [blk] using this
    unfold gravityTwist
    rw [iadj_zero, hr.eq, hz, blk_mulVec]
    simp [tw_zero]
  rw [weightUpdateE_ok γ up bs hp hz] at ho
  obtain rfl := Except.ok.inj ho
  dsimp only
  rw [Matrix.zero_mulVec, add_zero]
  clear ho hz hp
  funext e
  unfold weightPull
  induction bs with
  | nil => simp
  | cons x bs ih =>
    have ih := ih fun y hy => hM y (by simp [hy])
    obtain ⟨⟨I, hr⟩, h0⟩ := hM x (by simp)
    have hb : (x.2.jacᵀ *ᵥ (x.1.mass *ᵥ (iadjointBody x.2.pose *ᵥ gravityTwist γ up))) e =
        m x.1 * γ * (up ⬝ᵥ (rot x.2.pose *ᵥ (lin (x.2.jac *ᵥ Pi.single e 1) + ang (x.2.jac *ᵥ Pi.single e 1) ⨯₃ c x.1))) := by
      have e0 : ∀ y : Fin n → ℝ, y e = Pi.single e 1 ⬝ᵥ y := fun y => by simp
      rw [e0 (x.2.jacᵀ *ᵥ _), dot_transpose_mul, gravityTwist, iadj_zero, hr.eq]
      generalize x.2.jac *ᵥ (Pi.single e 1 : Fin n → ℝ) = V
      obtain ⟨w, u, rfl⟩ : ∃ w u, V = tw w u := ⟨ang V, lin V, (tw_ang_lin V).symm⟩
      rw [blk_mulVec, tw_dot]
      have h1 : ∀ y : Vec3, up ⬝ᵥ (rot x.2.pose *ᵥ y) = ((rot x.2.pose)ᵀ *ᵥ up) ⬝ᵥ y := fun y => by
        rw [dotProduct_comm ((rot x.2.pose)ᵀ *ᵥ up), dot_transpose_mul, dotProduct_comm]
      rw [h1]
      simp only [ang_tw, lin_tw, Matrix.mulVec_smul]
      generalize (rot x.2.pose)ᵀ *ᵥ up = g
      simp [dotProduct, Fin.sum_univ_succ, skew, Matrix.mulVec, cross_apply]
      ring
    rw [List.map_cons, List.sum_cons, List.map_cons, List.sum_cons, Pi.add_apply, ih, hb]

lemma pose_rigid (F : Forest Link Body) (hv : ∀ l ∈ F.links, ValidLink l) : ∀ {s : BodyDyn n}, IsRigid s.pose → ∀ x ∈ updateDynamic s F, IsRigid x.2.pose := by
  induction F with
  | nil => simp [updateDynamic]
  | cons l b ch sib h1 h2 =>
    intro s hs x hx
    have hd : IsRigid (dynStep s l).pose := by
      rw [dynStep_pose]
      exact hs.mul (hv l (by simp [Forest.links])).relPose
    rw [updateDynamic] at hx
    rcases List.mem_cons.mp hx with rfl | hx
    · exact hd
    · rcases List.mem_append.mp hx with hx | hx
      · exact h1 (fun l' h' => hv l' (by simp [Forest.links, h'])) hd x hx
      · exact h2 (fun l' h' => hv l' (by simp [Forest.links, h'])) hs x hx

lemma valid_link {l : MLink} (h : RigidLink l) : ValidLink ({ k := l.att.ndof, start := l.start, joint := l.att.val, bpose0 := l.bpose0, bpose1 := l.bpose1 } : Link) := by
  obtain ⟨att, start, b0, b1⟩ := l
  obtain ⟨h0, h1, h2⟩ := h
  cases att with
  | lin k q dq =>
    refine ⟨h0, h1, k.isRigid_pose _, ?_⟩
    change k.pose q * k.ipose q = 1
    rw [k.ipose_eq]
    exact (k.isRigid_pose _).mul_invBody
  | free H T => exact ⟨h0, h1, h2 H T rfl, (h2 H T rfl).mul_invBody⟩
  | fixed => exact ⟨h0, h1, isRigid_one, isRigid_one.mul_invBody⟩

lemma rigid_at {l : MLink} (h : RigidLink l) (x u : Fin n → ℝ) : RigidLink (jointAt x u l) := by
  obtain ⟨att, start, b0, b1⟩ := l
  obtain ⟨h0, h1, h2⟩ := h
  cases att with
  | lin k q dq => exact ⟨h0, h1, fun H T e => by cases e⟩
  | free H T => exact ⟨h0, h1, fun H' T' e => h2 H' T' e⟩
  | fixed => exact ⟨h0, h1, fun H T e => by cases e⟩

lemma poses_at {σ : Type} {w : MWorld n σ} (h : ∀ l ∈ w.tree.links, RigidLink l) : ∀ x ∈ worldDynamic n (linksOf w), IsRigid x.2.pose := by
  refine pose_rigid _ ?_ isRigid_one
  intro l hl
  rw [linksOf, links_map] at hl
  obtain ⟨l0, h0, rfl⟩ := List.mem_map.mp hl
  exact valid_link (h l0 h0)

/-- a link moves from its coordinates to the next ones -/
lemma jointAt_moved {dt : ℝ} {q v v' : Fin n → ℝ} {l l' : MLink} (hb : l.start + l.att.ndof ≤ n) (hf : NotFree l) (h : Moved dt v' (jointAt q v l) l') :
    l' = jointAt (q + dt • v') v' l := by
  obtain ⟨att, start, b0, b1⟩ := l
  obtain ⟨att', start', b0', b1'⟩ := l'
  obtain ⟨h1, h2, h3, h4⟩ := h
  cases att with
  | free H T => exact absurd rfl (hf H T)
  | fixed =>
    simp only [jointAt] at h1 h2 h3 h4 ⊢
    subst h1 h2 h3
    cases h4
    rfl
  | lin k p dp =>
    simp only [jointAt] at h1 h2 h3 h4 ⊢
    subst h1 h2 h3
    have hb : start' + k.ndof ≤ n := hb
    cases h4 with
    | lin _ _ _ hb' =>
      have e : ∀ (x : Fin n → ℝ) (i : Fin k.ndof), entry x (start' + i) = slice x start' k.ndof hb i := by
        intro x i
        simp only [entry, slice]
        rw [dif_pos (by omega)]
      congr 2
      · funext i
        simp only [e]
        rfl
      · funext i
        rw [e]

lemma tree_moved {dt : ℝ} {q v v' : Fin n → ℝ} : ∀ {F F' : Forest MLink Body}, (∀ l ∈ F.links, l.start + l.att.ndof ≤ n ∧ NotFree l) →
    ForestRel (Moved dt v') (F.map (jointAt q v) id) F' → F' = F.map (jointAt (q + dt • v') v') id
  | .nil, F', _, h => by
    rw [Forest.map] at h
    cases h
    rfl
  | .cons l b ch sib, F', hb, h => by
    rw [Forest.map] at h
    cases h with
    | cons hl hc hs =>
      have h1 := hb l (by simp [Forest.links])
      rw [Forest.map, jointAt_moved h1.1 h1.2 hl, tree_moved (fun l' h' => hb l' (by simp [Forest.links, h'])) hc, tree_moved (fun l' h' => hb l' (by simp [Forest.links, h'])) hs]

lemma jointAt_self {q v : Fin n → ℝ} {l : MLink} (hf : NotFree l) (hq : HasPos q l) (hv : HasVel v l) : jointAt q v l = l := by
  obtain ⟨att, start, b0, b1⟩ := l
  cases att with
  | free H T => exact absurd rfl (hf H T)
  | fixed => rfl
  | lin k p dp =>
    obtain ⟨hb, e1⟩ := hq
    obtain ⟨hb', e2⟩ := hv
    dsimp only at hb e1 hb' e2
    have e : ∀ (x : Fin n → ℝ) (i : Fin k.ndof), entry x (start + i) = slice x start k.ndof hb i := by
      intro x i
      simp only [entry, slice]
      rw [dif_pos (by omega)]
    simp only [jointAt, e, e1, e2]

lemma map_self {f : MLink → MLink} : ∀ {F : Forest MLink Body}, (∀ l ∈ F.links, f l = l) → F.map f id = F
  | .nil, _ => rfl
  | .cons l b ch sib, h => by
    rw [Forest.map, h l (by simp [Forest.links]), map_self fun l' h' => h l' (by simp [Forest.links, h']), map_self fun l' h' => h l' (by simp [Forest.links, h'])]
    rfl

lemma pos_at {q v : Fin n → ℝ} {l : MLink} (hb : l.start + l.att.ndof ≤ n) : HasPos q (jointAt q v l) := by
  obtain ⟨att, start, b0, b1⟩ := l
  cases att with
  | lin k p dp =>
    have hb : start + k.ndof ≤ n := hb
    refine ⟨hb, ?_⟩
    funext i
    simp only [jointAt, entry, slice]
    rw [dif_pos (by omega)]
  | free H T => trivial
  | fixed => trivial

lemma dofs_at {σ : Type} (w : MWorld n σ) (q v : Fin n → ℝ) (js : List ℕ) : dofsOf (worldAt w q v) js = dofsOf w js := by
  unfold dofsOf worldAt
  congr 1
  funext i
  dsimp only
  rw [links_map, List.getElem?_map]
  cases w.tree.links[i]? with
  | none => rfl
  | some l =>
    obtain ⟨att, start, b0, b1⟩ := l
    cases att <;> rfl

/-- what does not change during a run -/
structure Fixed (m : Body → ℝ) (c : Body → Vec3) (w : MWorld n Unit) : Prop where
  links : ∀ l ∈ w.tree.links, l.start + l.att.ndof ≤ n ∧ NotFree l ∧ RigidLink l
  num : Numbered 0 w.tree.links
  bodies : ∀ b ∈ w.tree.bodies, (∃ I, IsRigidMass b.mass (m b) (c b) I) ∧ 0 ≤ m b
  cons : w.cons = []

lemma Fixed.started {m : Body → ℝ} {c : Body → Vec3} {w w0 : MWorld n Unit} (hw : JointedWorld m c w) (h : Started w w0) : Fixed m c w0 := by
  refine ⟨fun l hl => ⟨?_, ?_⟩, h.numbered, ?_, by rw [h.cons, hw.cons]⟩
  · have := h.vel l hl
    obtain ⟨att, start, p0, p1⟩ := l
    cases att with
    | lin k q dq => exact this.choose
    | free H T => exact this.choose
    | fixed => exact this
  · obtain ⟨l0, hl0, he⟩ := h.tree.mem hl
    obtain ⟨h1, h2⟩ := hw.links l0 hl0
    rw [he]
    exact ⟨h1, ⟨h2.bpose0, h2.bpose1, h2.free⟩⟩
  · rw [← h.tree.links.2]
    exact hw.bodies

/-- the values of the controllers -/
lemma vals_at {up : Vec3} {m : Body → ℝ} {c : Body → Vec3} {w0 w a : MWorld n Unit} {q v : Fin n → ℝ} {dt : ℝ} (h0 : Fixed m c w0)
    (ht : w.tree = w0.tree.map (jointAt q v) id) (h1 : a.tree = w.tree) (h3 : a.dyn = bodiesAt w0 q v) (v' : Fin n → ℝ) {l : List LibCtrl} {vals : List (CtrlVal n)}
    (hl : ∀ x ∈ l, PlainCtrl x) (hv : List.Forall₂ (fun x v => LibCtrl.update up a dt x = .ok v) l vals) :
    (vals.map (·.gforce)).sum + (vals.map (·.impedance)).sum *ᵥ v' = (l.map (mixed up m c w0 (q, v) (q + dt • v') v')).sum := by
  have hlinks : ∀ l ∈ w.tree.links, HasPos q l ∧ RigidLink l := by
    intro l hl
    rw [ht, links_map] at hl
    obtain ⟨l0, hl0, rfl⟩ := List.mem_map.mp hl
    exact ⟨pos_at (h0.links l0 hl0).1, rigid_at (h0.links l0 hl0).2.2 _ _⟩
  have hd : worldDynamic n (linksOf w) = bodiesAt w0 q v := by
    unfold bodiesAt linksOf worldAt
    rw [ht]
  have hdofs : ∀ js, dofsOf w js = dofsOf w0 js := by
    intro js
    rw [← dofs_at w0 q v js]
    unfold dofsOf worldAt
    rw [ht]
  induction hv with
  | nil => simp
  | @cons x val l vals h1' _ ih =>
    have ih := ih fun y hy => hl y (by simp [hy])
    have h2' : val.gforce + val.impedance *ᵥ v' = mixed up m c w0 (q, v) (q + dt • v') v' x := by
      cases x with
      | weight γ =>
        have h3' : weightUpdateE γ up a.dyn = .ok val := h1'
        rw [h3] at h3'
        refine pull_eq (by rw [← hd]; exact poses_at fun l hl => (hlinks l hl).2) (fun x hx => h0.bodies _ ?_) h3' _
        have := mem_dyn (w := worldAt w0 q v) hx
        rwa [worldAt, bodies_map] at this
      | pd js g =>
        have h3' : pdUpdate n g (pdRead a js) dt = .ok val := h1'
        have e : pdRead a js = pdRead w js := by unfold pdRead; rw [h1]
        rw [e] at h3'
        have hn := pdDofMap_nodup h0.num (hl (.pd js g) (by simp))
        rw [← dofsOf_read, ← hdofs] at hn
        have := pd_force (fun l hl => (hlinks l hl).1) h3' hn v'
        rw [this, hdofs]
        rfl
    simp only [List.map_cons, List.sum_cons]
    rw [← h2', ← ih, Matrix.add_mulVec]
    abel

/-- one step -/
lemma step_at {up : Vec3} {m : Body → ℝ} {c : Body → Vec3} {cs : List LibCtrl} {dt : ℝ} {w0 w s w' : MWorld n Unit} {q : Fin n → ℝ} (h0 : Fixed m c w0)
    (hg : ∀ y ∈ cs, PlainCtrl y) (ht : w.tree = w0.tree.map (jointAt q w.gvel) id) (hc : w.cons = []) (h : WStep (libPlug n up cs) dt w s w') :
    w'.tree = w0.tree.map (jointAt (q + dt • w'.gvel) w'.gvel) id ∧ w'.cons = [] ∧
    worldMass (bodiesAt w0 q w.gvel) *ᵥ (w'.gvel - w.gvel) + dt • ((worldViscosity (bodiesAt w0 q w.gvel) + worldNleffects (bodiesAt w0 q w.gvel)) *ᵥ w'.gvel) =
      dt • (cs.map (mixed up m c w0 (q, w.gvel) (q + dt • w'.gvel) w'.gvel)).sum := by
  obtain ⟨vals, F, hseen, heq⟩ := h.motion
  have hF : F = 0 ∧ s.cons = [] := by
    obtain ⟨b, -, -, -, -, hb⟩ := hseen.cons
    rw [hc, List.map_nil] at hb
    generalize hc : s.cons = l at hb
    cases hb
    exact ⟨rfl, rfl⟩
  have hd : worldDynamic n (linksOf w) = bodiesAt w0 q w.gvel := by
    unfold bodiesAt linksOf worldAt
    rw [ht]
  have htr := h.tree
  rw [ht] at htr
  refine ⟨tree_moved (fun l hl => ⟨(h0.links l hl).1, (h0.links l hl).2.1⟩) htr, by rw [h.cons, hF.2], ?_⟩
  obtain ⟨a, h1, h2, h3, h4, h5, h6, h7⟩ := hseen.ctrl
  have hv : List.Forall₂ (fun x v => LibCtrl.update up a dt x = .ok v) cs vals := by
    simp only [libPlug] at h7
    cases ha : askAll up a dt cs with
    | error e => rw [ha] at h7; cases h7
    | ok vs =>
      rw [ha] at h7
      obtain ⟨-, rfl⟩ := Prod.mk.inj (Except.ok.inj h7)
      exact askAll_inv ha
  rw [← vals_at h0 ht h1 (by rw [h3, hseen.dyn, hd]) w'.gvel hg hv]
  unfold EquationOfMotion at heq
  rw [hseen.nleffects, hseen.mass, hseen.viscosity, hseen.dyn, hF.1, add_zero, hd] at heq
  have := congrArg (dt • ·) heq
  simp only [Matrix.sub_mulVec, Matrix.add_mulVec, Matrix.smul_mulVec, smul_sub, smul_add, smul_smul, mul_inv_cancel₀ h.pos.ne', one_smul] at this
  rw [Matrix.mulVec_sub, Matrix.add_mulVec, smul_add, smul_add]
  rw [sub_eq_iff_eq_add] at this
  have h2' : ∀ A B N C D E : Fin n → ℝ, A + B + N = C + D + E → A - C + (B + N) = D + E := by
    intro A B N C D E e
    rw [sub_add_eq_add_sub, ← add_assoc, e]
    abel
  exact h2' _ _ _ _ _ _ this

lemma vel_at {q v : Fin n → ℝ} {l : MLink} (hb : l.start + l.att.ndof ≤ n) (hf : NotFree l) : HasVel v (jointAt q v l) := by
  obtain ⟨att, start, b0, b1⟩ := l
  cases att with
  | lin k p dp =>
    have hb : start + k.ndof ≤ n := hb
    refine ⟨hb, ?_⟩
    funext i
    simp only [jointAt, entry, slice]
    rw [dif_pos (by omega)]
  | free H T => exact absurd rfl (hf H T)
  | fixed => exact Nat.le_of_add_right_le hb

lemma close_at {m : Body → ℝ} {c : Body → Vec3} {w0 w : MWorld n Unit} (h0 : Fixed m c w0) {q x u : Fin n → ℝ} (ht : w.tree = w0.tree.map (jointAt q w.gvel) id) {ε : ℝ}
    (h : ‖(q, w.gvel) - (x, u)‖ ≤ ε) : CloseTo x u ε w := by
  have hl : ∀ l ∈ w.tree.links, HasPos q l ∧ HasVel w.gvel l := by
    intro l hl
    rw [ht, links_map] at hl
    obtain ⟨l0, hl0, rfl⟩ := List.mem_map.mp hl
    exact ⟨pos_at (h0.links l0 hl0).1, vel_at (h0.links l0 hl0).1 (h0.links l0 hl0).2.1⟩
  exact close_of (fun l h' => (hl l h').1) (fun l h' => (hl l h').2) ((norm_fst_le _).trans h) ((norm_snd_le _).trans h)

/-- the state of a world is at most `C` away from the coordinates and velocities `y` -/
def NearAt (w0 : MWorld n Unit) (y : Z n) (C : ℝ) (w : MWorld n Unit) : Prop :=
  ∃ q : Fin n → ℝ, w.tree = w0.tree.map (jointAt q w.gvel) id ∧ ‖(q, w.gvel) - y‖ ≤ C

/-- every state of a run is near the exact motion -/
lemma evolves_near {up : Vec3} {m : Body → ℝ} {c : Body → Vec3} {cs : List LibCtrl} {w0 : MWorld n Unit} {t0 T h C : ℝ} {y : ℝ → Z n} (h0 : Fixed m c w0)
    (hg : ∀ y ∈ cs, PlainCtrl y) {Near : ℝ → Z n → Prop}
    (hstep : ∀ t t' q v q' v', t ∈ Set.Icc t0 T → t' ∈ Set.Icc t0 T → t < t' → t' - t ≤ h → Near t (q, v) → q' = q + (t' - t) • v' →
        worldMass (bodiesAt w0 q v) *ᵥ (v' - v) + (t' - t) • ((worldViscosity (bodiesAt w0 q v) + worldNleffects (bodiesAt w0 q v)) *ᵥ v') =
          (t' - t) • (cs.map (mixed up m c w0 (q, v) q' v')).sum → Near t' (q', v'))
    (hclose : ∀ t z, t ∈ Set.Icc t0 T → Near t z → ‖z - y t‖ ≤ C)
    {tl : List ℝ} {w w' : MWorld n Unit} {seen : List (ℝ × ℝ × MWorld n Unit)} (he : Evolves (libPlug n up cs) tl w seen w') :
    ∀ {q : Fin n → ℝ} {t t' : ℝ}, w.tree = w0.tree.map (jointAt q w.gvel) id → w.cons = [] → tl.head? = some t →
      tl.getLast? = some t' → (∀ τ ∈ tl, τ ∈ Set.Icc t0 T) → tl.IsChain (fun a b => b - a ≤ h) → Near t (q, w.gvel) →
      (t' ∈ Set.Icc t0 T ∧ NearAt w0 (y t') C w') ∧ ∀ s ∈ seen, s.1 ∈ Set.Icc t0 T ∧ NearAt w0 (y s.1) C s.2.2 := by
  induction he with
  | done τ w =>
    intro q t t' hq hc h1 h2 hT _ hn
    obtain rfl : τ = t := by simpa using h1
    obtain rfl : τ = t' := by simpa using h2
    exact ⟨⟨hT τ (by simp), q, hq, hclose _ _ (hT τ (by simp)) hn⟩, by simp⟩
  | @step τ τ' ts w s w1 w' seen hs hrest ih =>
    intro q t t' hq hc h1 h2 hT hch hn
    obtain rfl : τ = t := by simpa using h1
    obtain ⟨g1, g2, g3⟩ := step_at h0 hg hq hc hs
    obtain ⟨hd, hch'⟩ := List.isChain_cons_cons.mp hch
    have hn' := hstep τ τ' q w.gvel _ w1.gvel (hT τ (by simp)) (hT τ' (by simp)) (by linarith [hs.pos]) hd hn rfl g3
    obtain ⟨k1, k2⟩ := ih g1 g2 rfl (by rw [← h2, List.getLast?_cons_cons]) (fun y hy => hT y (by simp at hy ⊢; tauto)) hch' hn'
    refine ⟨k1, ?_⟩
    intro s' hs'
    rcases List.mem_cons.mp hs' with rfl | hs'
    · obtain ⟨vals, F, hseen, -⟩ := hs.motion
      refine ⟨hT τ (by simp), q, ?_, ?_⟩
      · rw [hseen.tree, hseen.gvel]
        exact hq
      · rw [hseen.gvel]
        exact hclose _ _ (hT τ (by simp)) hn
    · exact k2 s' hs'

/-- the steps as functions -/
lemma near_exists {up : Vec3} {m : Body → ℝ} {c : Body → Vec3} {cs : List LibCtrl} {w0 : MWorld n Unit} {t0 T : ℝ} {x u a : ℝ → Fin n → ℝ} (hT : t0 ≤ T)
    (hx : ExactPath up m c cs w0 t0 T x u a) :
    ∃ (M B N K D : Z n → Matrix (Fin n) (Fin n) ℝ) (b : Z n → Fin n → ℝ), (∀ z, M z = worldMass (bodiesAt w0 z.1 z.2)) ∧
      (∀ z q' v', (cs.map (mixed up m c w0 z q' v')).sum = b z - K z *ᵥ q' - D z *ᵥ v') ∧
      (∀ z, B z = worldViscosity (bodiesAt w0 z.1 z.2)) ∧ (∀ z, N z = worldNleffects (bodiesAt w0 z.1 z.2)) ∧
      ∃ A ≥ 0, ∃ L ≥ 0, ∃ h0 > 0, ∀ t dt h z, t0 ≤ t → 0 < dt → dt ≤ h → h ≤ h0 → t + dt ≤ T → ‖z - (x t, u t)‖ ≤ OneStep.bound A L h (t - t0) →
        (lhs M B N K D (dt, z)).det ≠ 0 ∧ ‖z + dt • slope M B N K D b (dt, z) - (x (t + dt), u (t + dt))‖ ≤ OneStep.bound A L h (t + dt - t0) := by
  obtain ⟨bs, h1, h2⟩ := smooth_bodies w0
  obtain ⟨b, K, D, hb, hf⟩ := mixed_form up m c w0 cs
  refine ⟨fun z => worldMass (bodiesAt w0 z.1 z.2), fun z => worldViscosity (bodiesAt w0 z.1 z.2), fun z => worldNleffects (bodiesAt w0 z.1 z.2), fun _ => K, fun _ => D, b,
    fun _ => rfl, hf, fun _ => rfl, fun _ => rfl, ?_⟩
  have hM : SM fun z : Z n => worldMass (bodiesAt w0 z.1 z.2) := by simp only [h2]; exact Smooth.mass h1
  have hB : SM fun z : Z n => worldViscosity (bodiesAt w0 z.1 z.2) := by simp only [h2]; exact Smooth.viscosity h1
  have hN : SM fun z : Z n => worldNleffects (bodiesAt w0 z.1 z.2) := by simp only [h2]; exact Smooth.nleffects h1
  refine OneStep.converges (y := fun t => (x t, u t)) hT (fun t ht => ?_) fun t ht => local_slope hM hB hN (SM.const _) (SM.const _) hb (hx.inertia t ht)
  have e := slope_zero (M := fun z => worldMass (bodiesAt w0 z.1 z.2)) (B := fun z => worldViscosity (bodiesAt w0 z.1 z.2)) (N := fun z => worldNleffects (bodiesAt w0 z.1 z.2))
    (K := fun _ => K) (D := fun _ => D) (b := b) (x := x t) (u := u t) (a := a t) (hx.inertia t ht) (by
      have h3 := hx.law t ht
      rw [← mixed_same] at h3
      rw [← hf]
      exact h3)
  rw [e]
  exact (hx.dx t ht).prodMk (hx.du t ht)

/-- every state of a simulation is near the exact motion -/
lemma converges {up : Vec3} {m : Body → ℝ} {c : Body → Vec3} {cs : List LibCtrl} {w w0 : MWorld n Unit} {t0 T : ℝ} {x u a : ℝ → Fin n → ℝ}
    (hw : JointedWorld m c w) (hg : ∀ y ∈ cs, PlainCtrl y) (hi : Mech.init w = .ok w0) (hx : ExactPath up m c cs w0 t0 T x u a) :
    ∃ C ≥ 0, ∃ hmax > 0, ∀ (h : ℝ) (tl : List ℝ) (k : ℕ) (tr : List (Ev (MWorld n Unit))) (w' : MWorld n Unit) (t' : ℝ), 0 ≤ h → h ≤ hmax → tl.head? = some t0 →
      (∀ t ∈ tl, t ≤ T) → tl.IsChain (fun t1 t2 => t2 - t1 ≤ h) → simulate (engine (libPlug n up cs)) w tl (.list k) = (tr, .ok (w', t')) →
      tl.getLast? = some t' ∧ (t' ∈ Set.Icc t0 T ∧ NearAt w0 (x t', u t') (C * h) w') ∧
      ∃ seen, tr = runCalls k t0 w0 tl seen ∧ ∀ s ∈ seen, s.1 ∈ Set.Icc t0 T ∧ NearAt w0 (x s.1, u s.1) (C * h) s.2.2 := by
  by_cases hT : t0 ≤ T
  swap
  · refine ⟨0, le_rfl, 1, one_pos, ?_⟩
    intro h tl k tr w' t' _ _ hhead hT' _ _
    exact absurd (hT' t0 (List.mem_of_mem_head? hhead)) hT
  obtain ⟨w0', h1, hst⟩ := init_started hw.dofs
  obtain rfl : w0 = w0' := Except.ok.inj (hi.symm.trans h1)
  have hfix := Fixed.started hw hst
  obtain ⟨M, B, N, K, D, b, eM, ef, eB, eN, A, hA, L, hL, hmax, hpos, hconv⟩ := near_exists hT hx
  have hτ : 0 ≤ T - t0 := by linarith
  refine ⟨A * (T - t0) * Real.exp (L * (T - t0)), by positivity, hmax, hpos, ?_⟩
  intro h tl k tr w' t' hh hhm hhead hTl hch hrun
  obtain ⟨t0', rest, w0', seen, e1, e2, e3, e4, e5, e6⟩ := (C45_run ..).mp hrun
  obtain rfl : w0 = w0' := Except.ok.inj (hi.symm.trans e3)
  obtain rfl : t0 = t0' := by rw [e1] at hhead; simpa using hhead.symm
  have hev := steps_evolves e4 hst.vel
  have hIcc : ∀ τ ∈ tl, τ ∈ Set.Icc t0 T := by
    intro τ hτ
    refine ⟨?_, hTl τ hτ⟩
    rw [e1] at hτ e2
    rcases List.mem_cons.mp hτ with rfl | hτ
    · exact le_rfl
    · exact ((List.pairwise_cons.mp e2).1 τ hτ).le
  have htree : w0.tree = w0.tree.map (jointAt (x t0) w0.gvel) id :=
    (map_self fun l hl => jointAt_self (hfix.links l hl).2.1 (hx.pos l hl) (hst.vel l hl)).symm
  obtain ⟨k1, k2⟩ := evolves_near (y := fun t => (x t, u t)) (T := T) (C := A * (T - t0) * Real.exp (L * (T - t0)) * h) hfix hg
    (Near := fun t z => ‖z - (x t, u t)‖ ≤ OneStep.bound A L h (t - t0)) (by
      intro t τ q v q' v' ht ht' htt hth hnear eq1 eq2
      obtain ⟨d1, d2⟩ := hconv t (τ - t) h (q, v) ht.1 (by linarith) hth hhm (by linarith [ht'.2]) hnear
      rw [ef, eq1] at eq2
      have := slope_step (M := M) (B := B) (N := N) (K := K) (D := D) (b := b) (dt := τ - t) (by linarith) d1 (by rw [eM, eB, eN]; exact eq2)
      rw [← this, ← eq1, add_sub_cancel] at d2
      exact d2) (by
      intro t z ht hz
      refine hz.trans ?_
      unfold OneStep.bound
      have f1 : Real.exp (L * (t - t0)) ≤ Real.exp (L * (T - t0)) := Real.exp_le_exp.mpr (mul_le_mul_of_nonneg_left (by linarith [ht.2]) hL)
      have f2 : A * h * (t - t0) ≤ A * h * (T - t0) := mul_le_mul_of_nonneg_left (by linarith [ht.2]) (by positivity)
      have f3 : 0 ≤ A * h * (T - t0) := by positivity
      calc _ ≤ A * h * (T - t0) * Real.exp (L * (T - t0)) := mul_le_mul f2 f1 (Real.exp_nonneg _) f3
        _ = _ := by ring) hev htree hfix.cons hhead e6 hIcc hch (by rw [hx.vel]; simp [OneStep.bound])
  exact ⟨e6, k1, seen, e5, k2⟩

end Turn

open Turn in
/-- C131.  Let `x`, `u` be the exact motion of a mechanism from `t0` to `T`: any tree of bodies with any joints but free ones (the bodies may rotate), with its
weight, its viscosity and its proportional-derivative controllers.  There is a number `C` such that every simulation from `t0`, at most until `T`, with small
enough steps, of at most `h`, regular or not, is at most `C h` away from the exact motion: positions and velocities, at the end and each time that observers
look. -/
theorem C131_converges {n : ℕ} {up : Vec3} {m : Body → ℝ} {c : Body → Vec3} {cs : List LibCtrl} {w w0 : MWorld n Unit} {t0 T : ℝ} {x u a : ℝ → Fin n → ℝ}
    (hw : JointedWorld m c w) (hg : ∀ y ∈ cs, PlainCtrl y) (hi : Mech.init w = .ok w0) (hx : ExactPath up m c cs w0 t0 T x u a) :
    ∃ C ≥ 0, ∃ hmax > 0, ∀ (h : ℝ) (tl : List ℝ) (k : ℕ) (tr : List (Ev (MWorld n Unit))) (w' : MWorld n Unit) (t' : ℝ), 0 ≤ h → h ≤ hmax → tl.head? = some t0 →
      (∀ t ∈ tl, t ≤ T) → tl.IsChain (fun t1 t2 => t2 - t1 ≤ h) → simulate (engine (libPlug n up cs)) w tl (.list k) = (tr, .ok (w', t')) →
      tl.getLast? = some t' ∧ CloseTo (x t') (u t') (C * h) w' ∧
      ∃ seen, tr = runCalls k t0 w0 tl seen ∧ ∀ s ∈ seen, CloseTo (x s.1) (u s.1) (C * h) s.2.2 := by
  obtain ⟨w0', h1, hst⟩ := init_started hw.dofs
  obtain rfl : w0 = w0' := Except.ok.inj (hi.symm.trans h1)
  have hfix := Fixed.started hw hst
  obtain ⟨C, hC, hmax, hpos, hconv⟩ := Turn.converges hw hg hi hx
  refine ⟨C, hC, hmax, hpos, ?_⟩
  intro h tl k tr w' t' hh hhm hhead hTl hch hrun
  obtain ⟨e1, ⟨-, q, k1, k2⟩, seen, e2, e3⟩ := hconv h tl k tr w' t' hh hhm hhead hTl hch hrun
  refine ⟨e1, close_at hfix k1 k2, seen, e2, fun s hs => ?_⟩
  obtain ⟨-, q, k1, k2⟩ := e3 s hs
  exact close_at hfix k1 k2

end Arboris
