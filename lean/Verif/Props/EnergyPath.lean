import Verif.Props.ConvergeTurn
import Verif.Props.Observers
import Verif.Props.PDStable
import Verif.Props.Graft
import Mathlib.Analysis.Calculus.Deriv.Prod

/-!
# C132: energy of the exact motion of mechanisms, and of their simulations
-/

namespace Arboris
open Matrix Spec Mech Build Sim Turn

/-! ### specification -/

/-- a joint with one axis, three sliding axes, or none -/
def Spec.SingleAxis (l : MLink) : Prop :=
  match l.att with
  | .lin k _ _ => k ∉ [LinKind.RzRyRx, .RzRy, .RzRx, .RyRx]
  | .free _ _ => False
  | .fixed => True

/-- joints which turn around several axes are only attached to the ground (or to bodies which cannot move) -/
def Spec.PlainTree {n : ℕ} (w : MWorld n Unit) : Prop :=
  ∀ x ∈ w.tree.paths, ∀ pre l post, x.2 = pre ++ l :: post → SingleAxis l ∨ ∀ m ∈ pre, m.att.ndof = 0

/-- power lost in the dampers between the dofs `ds` -/
noncomputable def Spec.damping {n : ℕ} (g : PDGains) (ds : List ℕ) (u : Fin n → ℝ) : ℝ :=
  ∑ i : Fin ds.length, ∑ j : Fin ds.length, entry u ds[i] * g.kd i j * entry u ds[j]

/-- power lost in the dampers of a controller -/
noncomputable def Spec.dampingOf {n : ℕ} (w : MWorld n Unit) (u : Fin n → ℝ) : LibCtrl → ℝ
  | .weight _ => 0
  | .pd js g => damping g (dofsOf w js) u

/-- a `WeightController`; or a `ProportionalDerivativeController` with symmetric proportional gains and desired velocities zero -/
def Spec.SpringCtrl {n : ℕ} (w : MWorld n Unit) : LibCtrl → Prop
  | .weight _ => True
  | .pd js g => (∀ i < (dofsOf w js).length, ∀ j < (dofsOf w js).length, g.kp i j = g.kp j i) ∧ ∀ i < (dofsOf w js).length, g.gvelDes i = 0

/-- the energy at each time of a path -/
noncomputable def Spec.energyAt {n : ℕ} (up : Vec3) (m : Body → ℝ) (c : Body → Vec3) (cs : List LibCtrl) (w : MWorld n Unit) (x u : ℝ → Fin n → ℝ) (t : ℝ) : ℝ :=
  totalEnergy up m c cs (worldAt w (x t) (u t))

/-- the dampers of a controller are passive -/
def Spec.PassiveCtrl {n : ℕ} (w : MWorld n Unit) : LibCtrl → Prop
  | .weight _ => True
  | .pd js g => ∀ x : ℕ → ℝ, 0 ≤ ∑ i ∈ Finset.range (dofsOf w js).length, ∑ j ∈ Finset.range (dofsOf w js).length, x i * g.kd i j * x j

/-- a controller without dampers -/
def Spec.UndampedCtrl {n : ℕ} (w : MWorld n Unit) : LibCtrl → Prop
  | .weight _ => True
  | .pd js g => ∀ i < (dofsOf w js).length, ∀ j < (dofsOf w js).length, g.kd i j = 0

/-! ### the energy along the exact motion -/

namespace Turn
variable {n : ℕ}

/-- the link moving along a path -/
noncomputable def pathLink (x u : ℝ → Fin n → ℝ) : MLink → LinkT
  | ⟨.lin k _ _, start, b0, b1⟩ => linLink k (fun s i => entry (x s) (start + i)) (fun s i => entry (u s) (start + i)) start b0 b1
  | ⟨.fixed, start, b0, b1⟩ => fixedLink start b0 b1
  | ⟨.free H T, start, b0, b1⟩ => freeLink (fun _ => H) (fun _ => T) start b0 b1

lemma path_at (x u : ℝ → Fin n → ℝ) (l : MLink) (s : ℝ) : (pathLink x u l).at s = linkAt (x s, u s) l := by
  obtain ⟨att, start, b0, b1⟩ := l
  cases att <;> rfl

lemma path_k (x u : ℝ → Fin n → ℝ) (l : MLink) : (pathLink x u l).k = l.att.ndof := by
  obtain ⟨att, start, b0, b1⟩ := l
  cases att <;> rfl

lemma tree_at {σ : Type} (w : MWorld n σ) (x u : ℝ → Fin n → ℝ) (s : ℝ) : treeAt (w.tree.map (pathLink x u) id) s = linksOf (worldAt w (x s) (u s)) := by
  unfold treeAt linksOf worldAt
  dsimp only
  rw [map_map', map_map']
  congr 1
  funext l
  exact path_at x u l s

lemma deriv_entry {x x' : ℝ → Fin n → ℝ} {t : ℝ} (h : HasDerivAt x (x' t) t) (d : ℕ) : HasDerivAt (fun s => entry (x s) d) (entry (x' t) d) t := by
  unfold entry
  by_cases hd : d < n
  · simp only [dif_pos hd]
    exact hasDerivAt_pi.mp h _
  · simp only [dif_neg hd]
    exact hasDerivAt_const t 0

lemma path_valid (x u : ℝ → Fin n → ℝ) {l : MLink} (hl : RigidLink l) (hf : NotFree l) (s : ℝ) : ValidLink ((pathLink x u l).at s) := by
  obtain ⟨att, start, b0, b1⟩ := l
  cases att with
  | lin k q dq => exact (C20_library_valid k _ _ start hl.bpose0 hl.bpose1 s (H := fun _ => 1) isRigid_one fun _ => 0).1
  | fixed => exact (C20_library_valid .Rx (fun _ _ => 0) (fun _ _ => 0) start hl.bpose0 hl.bpose1 s (H := fun _ => 1) isRigid_one fun _ => 0).2.2
  | free H T => exact absurd rfl (hf H T)

lemma path_moving {x u : ℝ → Fin n → ℝ} {t : ℝ} (h : HasDerivAt x (u t) t) {l : MLink} (hf : NotFree l) : (pathLink x u l).Moving t ∧ (pathLink x u l).MovingJac t := by
  obtain ⟨att, start, b0, b1⟩ := l
  cases att with
  | lin k q dq =>
    have hq : HasDerivV (fun s (i : Fin k.ndof) => entry (x s) (start + i)) (fun i => entry (u t) (start + i)) t := fun i => deriv_entry h _
    exact ⟨(C24_library_moving k _ _ start b0 b1 t hq (H := fun _ => 1) (T := fun _ => 0) (HasTwist.const t)).1,
      (C23_library_movingJac k _ _ start b0 b1 t hq (fun _ => 1) fun _ => 0).1⟩
  | fixed => exact ⟨HasTwist.const t, HasDeriv.const _ t⟩
  | free H T => exact absurd rfl (hf H T)

lemma path_own (x u : ℝ → Fin n → ℝ) (t : ℝ) {l : MLink} (h : SingleAxis l) : (pathLink x u l).OwnInvariant t := by
  obtain ⟨att, start, b0, b1⟩ := l
  cases att with
  | lin k q dq => exact (C23_library_ownInvariant k h _ _ start t).1
  | fixed => exact (C23_library_ownInvariant .Rx (by decide) (fun _ _ => 0) (fun _ _ => 0) start t).2
  | free H T => exact absurd h id

lemma path_cons (x u : ℝ → Fin n → ℝ) (t : ℝ) {l : MLink} (hb : l.start + l.att.ndof ≤ n) (hf : NotFree l) : Consistent (u t) ((pathLink x u l).at t) := by
  obtain ⟨att, start, b0, b1⟩ := l
  cases att with
  | lin k q dq =>
    have hb : start + k.ndof ≤ n := hb
    refine ⟨hb, ?_⟩
    have e : (fun i : Fin k.ndof => entry (u t) (start + i)) = slice (u t) start k.ndof hb := by
      funext i
      simp only [entry, slice]
      rw [dif_pos (by omega)]
    exact congrArg (k.jac (fun i => entry (x t) (start + i)) *ᵥ ·) e
  | fixed =>
    refine ⟨hb, ?_⟩
    exact (Matrix.zero_mulVec _).symm
  | free H T => exact absurd rfl (hf H T)

/-- the rate of the kinetic energy -/
lemma kinetic_path {m : Body → ℝ} {c : Body → Vec3} {w0 : MWorld n Unit} (h0 : Fixed m c w0) (hp : PlainTree w0) (hm : ∀ b ∈ w0.tree.bodies, 1e-10 < m b ∨ m b • c b = 0)
    {x u : ℝ → Fin n → ℝ} {a : Fin n → ℝ} {t : ℝ} (hx : HasDerivAt x (u t) t) (hu : HasDerivAt u a t) :
    HasDerivAt (fun s => 1 / 2 * (u s ⬝ᵥ worldMass (bodiesAt w0 (x s) (u s)) *ᵥ u s))
      (u t ⬝ᵥ (worldMass (bodiesAt w0 (x t) (u t)) *ᵥ a + worldNleffects (bodiesAt w0 (x t) (u t)) *ᵥ u t)) t := by
  have hl : ∀ l ∈ (w0.tree.map (pathLink x u) id).links, ∃ l0 ∈ w0.tree.links, l = pathLink x u l0 := by
    intro l hl
    rw [links_map] at hl
    obtain ⟨l0, h1, rfl⟩ := List.mem_map.mp hl
    exact ⟨l0, h1, rfl⟩
  have key := C29_partial (w0.tree.map (pathLink x u) id) u a t ?_ ?_ ?_ ?_ ?_ ?_ (fun i => hasDerivAt_pi.mp hu i)
  · simp only [tree_at] at key
    exact key
  · intro s l h
    obtain ⟨l0, h1, rfl⟩ := hl l h
    exact path_valid x u (h0.links l0 h1).2.2 (h0.links l0 h1).2.1 s
  · intro l h
    obtain ⟨l0, h1, rfl⟩ := hl l h
    exact (path_moving hx (h0.links l0 h1).2.1).1
  · intro l h
    obtain ⟨l0, h1, rfl⟩ := hl l h
    exact (path_moving hx (h0.links l0 h1).2.1).2
  · intro l h
    obtain ⟨l0, h1, rfl⟩ := hl l h
    exact path_cons x u t (h0.links l0 h1).1 (h0.links l0 h1).2.1
  · intro y hy pre l post e
    rw [paths_map] at hy
    obtain ⟨y0, hy0, rfl⟩ := List.mem_map.mp hy
    dsimp only at e
    obtain ⟨pre0, rest0, e1, rfl, e2⟩ := List.map_eq_append_iff.mp e
    obtain ⟨l0, post0, rfl, rfl, rfl⟩ := List.map_eq_cons_iff.mp e2
    rcases hp y0 hy0 pre0 l0 post0 e1 with h | h
    · exact .inl (path_own x u t h)
    · right
      intro k hk
      obtain ⟨k0, hk0, rfl⟩ := List.mem_map.mp hk
      rw [path_k]
      exact h k0 hk0
  · intro y hy
    rw [paths_map] at hy
    obtain ⟨y0, hy0, rfl⟩ := List.mem_map.mp hy
    have hb : y0.1 ∈ w0.tree.bodies := (Spec.Forest.mem_bodies_iff _ _).mpr ⟨_, hy0⟩
    obtain ⟨⟨I, h1⟩, -⟩ := h0.bodies _ hb
    exact ⟨_, _, I, h1, hm _ hb⟩

/-- the rate of the potential energy of weight -/
lemma weight_path {m : Body → ℝ} {c : Body → Vec3} {w0 : MWorld n Unit} (h0 : Fixed m c w0) (γ : ℝ) (up : Vec3)
    {x u : ℝ → Fin n → ℝ} {t : ℝ} (hx : HasDerivAt x (u t) t) :
    HasDerivAt (fun s => -γ * ((bodiesAt w0 (x s) (u s)).map fun y => massHeight up y.2.pose (m y.1) (c y.1)).sum)
      (-(u t ⬝ᵥ weightPull γ up m c (bodiesAt w0 (x t) (u t)))) t := by
  have hl : ∀ l ∈ (w0.tree.map (pathLink x u) id).links, ∃ l0 ∈ w0.tree.links, l = pathLink x u l0 := by
    intro l hl
    rw [links_map] at hl
    obtain ⟨l0, h1, rfl⟩ := List.mem_map.mp hl
    exact ⟨l0, h1, rfl⟩
  have hb : ∀ y ∈ (w0.tree.map (pathLink x u) id).paths, y.1 ∈ w0.tree.bodies := by
    intro y hy
    rw [paths_map] at hy
    obtain ⟨y0, hy0, rfl⟩ := List.mem_map.mp hy
    exact (Spec.Forest.mem_bodies_iff _ _).mpr ⟨_, hy0⟩
  have hI : ∀ b, ∃ I, b ∈ w0.tree.bodies → IsRigidMass b.mass (m b) (c b) I := by
    intro b
    by_cases h : b ∈ w0.tree.bodies
    · obtain ⟨I, hI⟩ := (h0.bodies b h).1
      exact ⟨I, fun _ => hI⟩
    · exact ⟨0, fun h' => absurd h' h⟩
  choose I hI using hI
  obtain ⟨out, ho, hz, key⟩ := C35_power γ up (w0.tree.map (pathLink x u) id) t (u t) m c I (by
      intro l h
      obtain ⟨l0, h1, rfl⟩ := hl l h
      exact path_valid x u (h0.links l0 h1).2.2 (h0.links l0 h1).2.1 t) (by
      intro l h
      obtain ⟨l0, h1, rfl⟩ := hl l h
      exact (path_moving hx (h0.links l0 h1).2.1).1) (by
      intro l h
      obtain ⟨l0, h1, rfl⟩ := hl l h
      exact path_cons x u t (h0.links l0 h1).1 (h0.links l0 h1).2.1) (fun y hy => hI _ (hb y hy)) fun y hy => (h0.bodies _ (hb y hy)).2
  simp only [tree_at] at key ho
  have hr : ∀ l ∈ (worldAt w0 (x t) (u t)).tree.links, RigidLink l := by
    intro l hl
    rw [worldAt, links_map] at hl
    obtain ⟨l0, h1, rfl⟩ := List.mem_map.mp hl
    exact rigid_at (h0.links l0 h1).2.2 _ _
  have e := pull_eq (γ := γ) (up := up) (m := m) (c := c) (poses_at hr) (fun y hy => by
    have := mem_dyn hy
    rw [worldAt, bodies_map] at this
    exact h0.bodies _ this) ho 0
  rw [Matrix.mulVec_zero, add_zero] at e
  rw [e] at key
  refine (key.neg).congr_of_eventuallyEq (Filter.Eventually.of_forall fun s => ?_)
  simp only [Pi.neg_apply, bodiesAt]
  ring

lemma springs_eq (g : PDGains) (ds : List ℕ) (x : Fin n → ℝ) :
    springs g (ds.map (entry x)) = 1 / 2 * ∑ i : Fin ds.length, ∑ j : Fin ds.length, (entry x ds[i] - g.gposDes i) * g.kp i j * (entry x ds[j] - g.gposDes j) := by
  unfold springs
  rw [List.length_map, Finset.sum_range]
  congr 1
  refine Finset.sum_congr rfl fun i _ => ?_
  rw [Finset.sum_range]
  refine Finset.sum_congr rfl fun j _ => ?_
  rw [List.getD_eq_getElem _ _ (by simp), List.getD_eq_getElem _ _ (by simp)]
  simp

lemma power_pd (g : PDGains) (ds : List ℕ) (x u : Fin n → ℝ) :
    u ⬝ᵥ pdForce g ds x u = ∑ i : Fin ds.length, entry u ds[i] *
      ∑ j : Fin ds.length, (g.kp i j * (g.gposDes j - entry x ds[j]) + g.kd i j * (g.gvelDes j - entry u ds[j])) := by
  simp only [dotProduct, pdForce, Finset.mul_sum]
  rw [Finset.sum_comm]
  refine Finset.sum_congr rfl fun i _ => ?_
  by_cases h : ds[i] < n
  · rw [Finset.sum_eq_single ⟨ds[i], h⟩]
    · simp only [if_true, entry, dif_pos h, Finset.mul_sum]
    · intro e _ he
      rw [if_neg (fun h' => he (Fin.ext h'.symm)), mul_zero]
    · simp
  · rw [Finset.sum_eq_zero, entry, dif_neg h]
    · simp
    · intro e _
      rw [if_neg (by have := e.isLt; omega), mul_zero]

/-- the rate of the energy of springs -/
lemma spring_path {g : PDGains} {ds : List ℕ} (hs : ∀ i < ds.length, ∀ j < ds.length, g.kp i j = g.kp j i) (hd : ∀ i < ds.length, g.gvelDes i = 0)
    {x u : ℝ → Fin n → ℝ} {t : ℝ} (hx : HasDerivAt x (u t) t) :
    HasDerivAt (fun s => springs g (ds.map (entry (x s)))) (-(u t ⬝ᵥ pdForce g ds (x t) (u t)) - damping g ds (u t)) t := by
  simp only [springs_eq]
  have h1 : ∀ i : Fin ds.length, HasDerivAt (fun s => entry (x s) ds[i] - g.gposDes i) (entry (u t) ds[i]) t := fun i => (deriv_entry hx _).sub_const _
  have h2 := (HasDerivAt.fun_sum (u := Finset.univ) fun (i : Fin ds.length) _ => HasDerivAt.fun_sum (u := Finset.univ) fun (j : Fin ds.length) _ =>
    (((h1 i).mul_const (g.kp i j)).mul (h1 j))).const_mul (1 / 2)
  refine h2.congr_deriv ?_
  rw [power_pd, damping]
  have h3 : ∑ i : Fin ds.length, ∑ j : Fin ds.length, (entry (x t) ds[i] - g.gposDes i) * g.kp i j * entry (u t) ds[j] =
      ∑ i : Fin ds.length, ∑ j : Fin ds.length, entry (u t) ds[i] * g.kp i j * (entry (x t) ds[j] - g.gposDes j) := by
    rw [Finset.sum_comm]
    refine Finset.sum_congr rfl fun i _ => Finset.sum_congr rfl fun j _ => ?_
    rw [hs j j.2 i i.2]
    ring
  simp only [Finset.sum_add_distrib, h3]
  simp only [Finset.mul_sum, ← Finset.sum_neg_distrib, ← Finset.sum_sub_distrib, ← Finset.sum_add_distrib]
  refine Finset.sum_congr rfl fun i _ => Finset.sum_congr rfl fun j _ => ?_
  rw [hd j j.2]
  ring

lemma gpos_at {w0 : MWorld n Unit} (h : ∀ l ∈ w0.tree.links, l.start + l.att.ndof ≤ n) (x u : Fin n → ℝ) (js : List ℕ) :
    gposOf (worldAt w0 x u) js = (dofsOf w0 js).map (entry x) := by
  rw [gposOf_read, read_pos (x := x), dofs_at]
  intro l hl
  rw [worldAt, links_map] at hl
  obtain ⟨l0, h1, rfl⟩ := List.mem_map.mp hl
  exact pos_at (h l0 h1)

/-- the power balance -/
lemma energy_path {up : Vec3} {m : Body → ℝ} {c : Body → Vec3} {cs : List LibCtrl} {w0 : MWorld n Unit} (h0 : Fixed m c w0) (hp : PlainTree w0)
    (hm : ∀ b ∈ w0.tree.bodies, 1e-10 < m b ∨ m b • c b = 0) (hc : ∀ y ∈ cs, SpringCtrl w0 y)
    {x u : ℝ → Fin n → ℝ} {a : Fin n → ℝ} {t : ℝ} (hx : HasDerivAt x (u t) t) (hu : HasDerivAt u a t)
    (hlaw : worldMass (bodiesAt w0 (x t) (u t)) *ᵥ a + worldNleffects (bodiesAt w0 (x t) (u t)) *ᵥ u t +
      worldViscosity (bodiesAt w0 (x t) (u t)) *ᵥ u t = (cs.map (forceAt up m c w0 (x t) (u t))).sum) :
    HasDerivAt (fun s => totalEnergy up m c cs (worldAt w0 (x s) (u s)))
      (-(u t ⬝ᵥ worldViscosity (bodiesAt w0 (x t) (u t)) *ᵥ u t) - (cs.map (dampingOf w0 (u t))).sum) t := by
  have h1 := kinetic_path h0 hp hm hx hu
  have h2 : ∀ l : List LibCtrl, (∀ y ∈ l, SpringCtrl w0 y) → HasDerivAt (fun s => (l.map (potential up m c (worldAt w0 (x s) (u s)))).sum)
      (-(u t ⬝ᵥ (l.map (forceAt up m c w0 (x t) (u t))).sum) - (l.map (dampingOf w0 (u t))).sum) t := by
    intro l hl
    induction l with
    | nil => simpa using hasDerivAt_const t (0 : ℝ)
    | cons y l ih =>
      simp only [List.map_cons, List.sum_cons]
      have hy : HasDerivAt (fun s => potential up m c (worldAt w0 (x s) (u s)) y) (-(u t ⬝ᵥ forceAt up m c w0 (x t) (u t) y) - dampingOf w0 (u t) y) t := by
        cases y with
        | weight γ =>
          have := weight_path h0 γ up hx
          simpa [potential, forceAt, dampingOf, bodiesAt] using this
        | pd js g =>
          obtain ⟨h3, h4⟩ := hl (.pd js g) (by simp)
          have := spring_path h3 h4 hx
          simp only [potential, gpos_at fun l hl => (h0.links l hl).1]
          exact this
      refine (hy.add (ih fun z hz => hl z (by simp [hz]))).congr_deriv ?_
      rw [dotProduct_add]
      ring
  refine (h1.add (h2 cs hc)).congr_deriv ?_
  rw [← hlaw]
  simp only [dotProduct_add]
  ring

/-! ### after `init` -/

lemma paths_rel {L B : Type} {R : L → L → Prop} {F G : Forest L B} (h : ForestRel R F G) :
    List.Forall₂ (fun x y : B × List L => List.Forall₂ R x.2 y.2) F.paths G.paths := by
  induction h with
  | nil => exact .nil
  | cons hl _ _ ih1 ih2 =>
    refine .cons (.cons hl .nil) (List.rel_append ?_ ih2)
    rw [List.forall₂_map_left_iff, List.forall₂_map_right_iff]
    exact ih1.imp fun x y h => .cons hl h

lemma split_rel {A : Type} {R : A → A → Prop} : ∀ {pre a post : List A} {l : A}, List.Forall₂ R a (pre ++ l :: post) →
    ∃ pre0 l0 post0, a = pre0 ++ l0 :: post0 ∧ R l0 l ∧ List.Forall₂ R pre0 pre
  | [], a, post, l, h => by
    obtain ⟨l0, post0, h1, -, rfl⟩ := List.forall₂_cons_right_iff.mp h
    exact ⟨[], l0, post0, rfl, h1, .nil⟩
  | p :: pre, a, post, l, h => by
    obtain ⟨p0, a0, h1, h2, rfl⟩ := List.forall₂_cons_right_iff.mp h
    obtain ⟨pre0, l0, post0, rfl, h3, h4⟩ := split_rel h2
    exact ⟨p0 :: pre0, l0, post0, rfl, h3, .cons h1 h4⟩

lemma plain_started {w w0 : MWorld n Unit} (h : Started w w0) (hp : PlainTree w) : PlainTree w0 := by
  intro y hy pre l post e
  obtain ⟨x, hx, hr⟩ := forall₂_left (paths_rel h.tree).flip y hy
  rw [e] at hr
  obtain ⟨pre0, l0, post0, e1, e2, e3⟩ := split_rel hr
  rcases hp x hx pre0 l0 post0 e1 with h | h
  · left
    rw [e2]
    exact h
  · right
    intro k hk
    obtain ⟨k0, hk0, e4⟩ := forall₂_left e3.flip k hk
    rw [e4]
    exact h k0 hk0

end Turn

/-! ### theorems -/

variable {n : ℕ}

lemma spring_started {w w0 : MWorld n Unit} (h : Started w w0) {y : LibCtrl} (hy : SpringCtrl w y) : SpringCtrl w0 y := by
  cases y with
  | weight γ => trivial
  | pd js g =>
    have := dofs_started h js
    simp only [SpringCtrl, this] at hy ⊢
    exact hy

/-- C132: the power balance of the exact motion.  The energy (kinetic, of weight, of the springs of the proportional-derivative controllers) decreases at the
rate at which viscosity and the dampers of the controllers dissipate it. -/
theorem C132_balance {up : Vec3} {m : Body → ℝ} {c : Body → Vec3} {cs : List LibCtrl} {w w0 : MWorld n Unit} {t0 T : ℝ} {x u a : ℝ → Fin n → ℝ}
    (hw : JointedWorld m c w) (hp : PlainTree w) (hm : ∀ b ∈ w.tree.bodies, 1e-10 < m b ∨ m b • c b = 0) (hc : ∀ y ∈ cs, SpringCtrl w y)
    (hi : Mech.init w = .ok w0) (hx : ExactPath up m c cs w0 t0 T x u a) :
    ∀ t ∈ Set.Icc t0 T, HasDerivAt (energyAt up m c cs w0 x u)
      (-(u t ⬝ᵥ worldViscosity (bodiesAt w0 (x t) (u t)) *ᵥ u t) - (cs.map (dampingOf w0 (u t))).sum) t := by
  obtain ⟨w0', h1, hst⟩ := init_started hw.dofs
  obtain rfl : w0 = w0' := Except.ok.inj (hi.symm.trans h1)
  intro t ht
  exact energy_path (Fixed.started hw hst) (plain_started hst hp) (by rw [← hst.tree.links.2]; exact hm) (fun y hy => spring_started hst (hc y hy))
    (hx.dx t ht) (hx.du t ht) (hx.law t ht)

lemma damping_zero {w w0 : MWorld n Unit} (h : Started w w0) {cs : List LibCtrl} (hc : ∀ y ∈ cs, UndampedCtrl w y) (u : Fin n → ℝ) : (cs.map (dampingOf w0 u)).sum = 0 := by
  refine List.sum_eq_zero fun r hr => ?_
  obtain ⟨y, hy, rfl⟩ := List.mem_map.mp hr
  cases y with
  | weight γ => rfl
  | pd js g =>
    have h1 := hc _ hy
    have := dofs_started h js
    simp only [UndampedCtrl, ← this] at h1
    unfold dampingOf damping
    refine Finset.sum_eq_zero fun i _ => Finset.sum_eq_zero fun j _ => ?_
    rw [h1 i i.2 j j.2]
    ring

lemma damping_nonneg {w w0 : MWorld n Unit} (h : Started w w0) {cs : List LibCtrl} (hc : ∀ y ∈ cs, PassiveCtrl w y) (u : Fin n → ℝ) : 0 ≤ (cs.map (dampingOf w0 u)).sum := by
  refine List.sum_nonneg fun r hr => ?_
  obtain ⟨y, hy, rfl⟩ := List.mem_map.mp hr
  cases y with
  | weight γ => exact le_rfl
  | pd js g =>
    have h1 := hc _ hy
    have := dofs_started h js
    simp only [PassiveCtrl, ← this] at h1
    have h2 := h1 fun i => entry u ((dofsOf w0 js).getD i 0)
    unfold dampingOf damping
    rw [Finset.sum_range] at h2
    refine h2.trans_eq (Finset.sum_congr rfl fun i _ => ?_)
    rw [Finset.sum_range]
    refine Finset.sum_congr rfl fun j _ => ?_
    rw [List.getD_eq_getElem _ _ i.2, List.getD_eq_getElem _ _ j.2]
    rfl

/-- C132: without viscosity nor dampers, the exact motion conserves energy. -/
theorem C132_conserved {up : Vec3} {m : Body → ℝ} {c : Body → Vec3} {cs : List LibCtrl} {w w0 : MWorld n Unit} {t0 T : ℝ} {x u a : ℝ → Fin n → ℝ}
    (hw : JointedWorld m c w) (hp : PlainTree w) (hm : ∀ b ∈ w.tree.bodies, 1e-10 < m b ∨ m b • c b = 0) (hc : ∀ y ∈ cs, SpringCtrl w y)
    (hv : ∀ b ∈ w.tree.bodies, b.viscosity = 0) (hd : ∀ y ∈ cs, UndampedCtrl w y)
    (hi : Mech.init w = .ok w0) (hx : ExactPath up m c cs w0 t0 T x u a) :
    ∀ t ∈ Set.Icc t0 T, energyAt up m c cs w0 x u t = energyAt up m c cs w0 x u t0 := by
  obtain ⟨w0', h1, hst⟩ := init_started hw.dofs
  obtain rfl : w0 = w0' := Except.ok.inj (hi.symm.trans h1)
  have hB : ∀ y v : Fin n → ℝ, worldViscosity (bodiesAt w0 y v) = 0 := by
    intro y v
    have : ∀ z ∈ bodiesAt w0 y v, z.1.viscosity = 0 := by
      intro z hz
      have := mem_dyn hz
      rw [worldAt, bodies_map, ← hst.tree.links.2] at this
      exact hv _ this
    rw [worldViscosity_eq]
    refine List.sum_eq_zero fun r hr => ?_
    obtain ⟨z, hz, rfl⟩ := List.mem_map.mp hr
    rw [this z hz]
    simp
  have hder : ∀ t ∈ Set.Icc t0 T, HasDerivAt (energyAt up m c cs w0 x u) 0 t := by
    intro t ht
    have := C132_balance hw hp hm hc hi hx t ht
    rw [hB, damping_zero hst hd] at this
    simpa using this
  intro t ht
  refine constant_of_has_deriv_right_zero (fun s hs => (hder s hs).continuousAt.continuousWithinAt) (fun s hs => (hder s (Set.Ico_subset_Icc_self hs)).hasDerivWithinAt) t ht

/-- C132: with positive viscosities and dampers, the energy of the exact motion does not increase. -/
theorem C132_dissipates {up : Vec3} {m : Body → ℝ} {c : Body → Vec3} {cs : List LibCtrl} {w w0 : MWorld n Unit} {t0 T : ℝ} {x u a : ℝ → Fin n → ℝ}
    (hw : JointedWorld m c w) (hp : PlainTree w) (hm : ∀ b ∈ w.tree.bodies, 1e-10 < m b ∨ m b • c b = 0) (hc : ∀ y ∈ cs, SpringCtrl w y)
    (hv : ∀ b ∈ w.tree.bodies, SymPSD b.viscosity) (hd : ∀ y ∈ cs, PassiveCtrl w y)
    (hi : Mech.init w = .ok w0) (hx : ExactPath up m c cs w0 t0 T x u a) : AntitoneOn (energyAt up m c cs w0 x u) (Set.Icc t0 T) := by
  obtain ⟨w0', h1, hst⟩ := init_started hw.dofs
  obtain rfl : w0 = w0' := Except.ok.inj (hi.symm.trans h1)
  have hB : ∀ y v : Fin n → ℝ, SymPSD (worldViscosity (bodiesAt w0 y v)) := by
    intro y v
    refine C27_viscosity _ fun z hz => ?_
    have := mem_dyn hz
    rw [worldAt, bodies_map, ← hst.tree.links.2] at this
    exact hv _ this
  have hder := C132_balance hw hp hm hc hi hx
  refine antitoneOn_of_hasDerivWithinAt_nonpos (convex_Icc _ _) (fun t ht => (hder t ht).continuousAt.continuousWithinAt) (fun t ht => (hder t (interior_subset ht)).hasDerivWithinAt) ?_
  intro t ht
  have h2 := (hB (x t) (u t)).2 (u t)
  have h3 := damping_nonneg hst hd (u t)
  linarith

end Arboris
