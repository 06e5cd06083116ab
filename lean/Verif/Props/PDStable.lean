import Verif.Model.Control
import Verif.Proofs.Sliding
import Verif.Props.World
import Verif.Props.Controllers
import Verif.Props.Dynamics
import Mathlib.Data.List.GetD

/-!
# C118: proportional-derivative control does not make sliding mechanisms unstable
-/

namespace Arboris
open Matrix Spec Mech Build Sim

/-! ### specification -/

/-- the coordinates of the joints of ranks `js`, one after the other -/
def Spec.gposOf {n : ℕ} {σ : Type} (w : MWorld n σ) (js : List ℕ) : List ℝ :=
  js.flatMap fun i => match (w.tree.links[i]? : Option MLink) with
    | some ⟨.lin _ q _, _, _, _⟩ => List.ofFn q
    | _ => []

/-- energy of the springs of a `ProportionalDerivativeController` when its joints are at `x` -/
noncomputable def Spec.springs (g : PDGains) (x : List ℝ) : ℝ :=
  (1 / 2) * ∑ i ∈ Finset.range x.length, ∑ j ∈ Finset.range x.length, (x.getD i 0 - g.gposDes i) * g.kp i j * (x.getD j 0 - g.gposDes j)

/-- potential energy of a controller: springs, or weight (`m` and `c` are the mass and the centre of mass of the bodies) -/
noncomputable def Spec.potential {n : ℕ} {σ : Type} (up : Vec3) (m : Body → ℝ) (c : Body → Vec3) (w : MWorld n σ) : LibCtrl → ℝ
  | .weight γ => -γ * ((worldDynamic n (linksOf w)).map fun x => massHeight up x.2.pose (m x.1) (c x.1)).sum
  | .pd js g => springs g (gposOf w js)

/-- kinetic energy, potential energies -/
noncomputable def Spec.totalEnergy {n : ℕ} {σ : Type} (up : Vec3) (m : Body → ℝ) (c : Body → Vec3) (cs : List LibCtrl) (w : MWorld n σ) : ℝ :=
  (1 / 2) * (w.gvel ⬝ᵥ worldMass (worldDynamic n (linksOf w)) *ᵥ w.gvel) + (cs.map (potential up m c w)).sum

/-- the gains of `k` dofs are positive (not strictly), those of proportionality symmetric, and the desired velocity is zero -/
structure Spec.GoodGains (k : ℕ) (g : PDGains) : Prop where
  symm : ∀ i < k, ∀ j < k, g.kp i j = g.kp j i
  kp : ∀ x : ℕ → ℝ, 0 ≤ ∑ i ∈ Finset.range k, ∑ j ∈ Finset.range k, x i * g.kp i j * x j
  kd : ∀ x : ℕ → ℝ, 0 ≤ ∑ i ∈ Finset.range k, ∑ j ∈ Finset.range k, x i * g.kd i j * x j
  des : ∀ i < k, g.gvelDes i = 0

/-- a `WeightController`; or a `ProportionalDerivativeController` of different joints, with good gains -/
def Spec.GoodCtrl {n : ℕ} {σ : Type} (w : MWorld n σ) : LibCtrl → Prop
  | .weight _ => True
  | .pd js g => js.Nodup ∧ GoodGains (gposOf w js).length g

/-! ### the power of the controllers -/

section
variable {n : ℕ}

/-- what a step does to a joint read by the controller -/
structure PDMoved (dt : ℝ) (ν : ℕ → ℝ) (p p' : PDJoint) : Prop where
  start : p'.start = p.start
  len : p'.gpos.length = p.gpos.length
  gpos : ∀ j < p.gpos.length, p'.gpos.getD j 0 = p.gpos.getD j 0 + dt * ν (p.start + j)

/-- a vector as a function of naturals -/
def wide (v : Fin n → ℝ) : ℕ → ℝ := fun e => if h : e < n then v ⟨e, h⟩ else 0

lemma wide_val (v : Fin n → ℝ) : (fun e : Fin n => wide v e.val) = v := by
  funext e
  simp [wide]

lemma pd_moved {dt : ℝ} {v : Fin n → ℝ} {l l' : MLink} (h : Moved dt v l l') : PDMoved dt (wide v) l.pd l'.pd := by
  obtain ⟨att, start, b0, b1⟩ := l
  obtain ⟨att', start', b0', b1'⟩ := l'
  obtain ⟨h1, h2, h3, h4⟩ := h
  dsimp only at h1 h2 h3 h4
  subst h1 h2 h3
  cases h4 with
  | lin k q dq hb =>
    refine ⟨rfl, by simp [MLink.pd], ?_⟩
    intro j hj
    have hj' : j < k.ndof := by simpa [MLink.pd] using hj
    have hw : wide v (start' + j) = v ⟨start' + j, by omega⟩ := by
      simp only [wide]
      rw [dif_pos (by omega)]
    simp only [MLink.pd, List.getD_eq_getElem?_getD, List.getElem?_ofFn, hj', dite_true, Option.getD_some, hw, slice]
  | free => exact ⟨rfl, rfl, fun j hj => by simp [MLink.pd] at hj⟩
  | fixed => exact ⟨rfl, rfl, fun j hj => by simp [MLink.pd] at hj⟩

lemma read_moved {σ : Type} {dt : ℝ} {v : Fin n → ℝ} {w w' : MWorld n σ} (h : List.Forall₂ (Moved dt v) w.tree.links w'.tree.links) (js : List ℕ) :
    List.Forall₂ (PDMoved dt (wide v)) (pdRead w js) (pdRead w' js) := by
  unfold pdRead
  induction js with
  | nil => exact .nil
  | cons i js ih =>
    have hlen := h.length_eq
    by_cases hi : i < w.tree.links.length
    · have hi' : i < w'.tree.links.length := by omega
      rw [List.filterMap_cons_some (b := (w.tree.links[i]).pd) (by simp [hi]), List.filterMap_cons_some (b := (w'.tree.links[i]).pd) (by simp [hi'])]
      exact .cons (pd_moved (List.Forall₂.get h hi hi')) ih
    · rw [List.filterMap_cons_none (by simp; omega), List.filterMap_cons_none (by simp; omega)]
      exact ih

lemma gposOf_read {σ : Type} (w : MWorld n σ) (js : List ℕ) : gposOf w js = (pdRead w js).flatMap PDJoint.gpos := by
  unfold gposOf pdRead
  induction js with
  | nil => rfl
  | cons i js ih =>
    rw [List.flatMap_cons, ih]
    cases hl : w.tree.links[i]? with
    | none =>
      rw [List.filterMap_cons_none (by simp [hl])]
      rfl
    | some l =>
      rw [List.filterMap_cons_some (b := l.pd) (by simp [hl]), List.flatMap_cons]
      obtain ⟨att, start, b0, b1⟩ := l
      cases att <;> rfl

lemma moved_lists {dt : ℝ} {ν : ℕ → ℝ} {r r' : List PDJoint} (h : List.Forall₂ (PDMoved dt ν) r r') :
    pdDofMap r' = pdDofMap r ∧ (r'.flatMap PDJoint.gpos).length = (r.flatMap PDJoint.gpos).length ∧
      ∀ i < (r.flatMap PDJoint.gpos).length, (r'.flatMap PDJoint.gpos).getD i 0 = (r.flatMap PDJoint.gpos).getD i 0 + dt * ν ((pdDofMap r).getD i 0) := by
  unfold pdDofMap
  induction h with
  | nil => simp
  | @cons p p' r r' h1 _ ih =>
    obtain ⟨i1, i2, i3⟩ := ih
    have hn : p'.ndof = p.ndof := h1.len
    refine ⟨by rw [List.flatMap_cons, List.flatMap_cons, i1, h1.start, hn], by simp [h1.len, i2], ?_⟩
    intro i hi
    simp only [List.flatMap_cons, List.length_append] at hi ⊢
    by_cases hp : i < p.gpos.length
    · have hr : i < (List.range' p.start p.ndof).length := by simpa [PDJoint.ndof] using hp
      rw [List.getD_append _ _ _ _ (by rw [h1.len]; exact hp), List.getD_append _ _ _ _ hp, List.getD_append _ _ _ _ hr, h1.gpos i hp]
      congr 2
      simp only [List.getD_eq_getElem?_getD]
      rw [List.getElem?_eq_getElem hr]
      simp
    · have hp' : p.gpos.length ≤ i := by omega
      have hr : (List.range' p.start p.ndof).length ≤ i := by simpa [PDJoint.ndof] using hp'
      rw [List.getD_append_right _ _ _ _ (by rw [h1.len]; exact hp'), List.getD_append_right _ _ _ _ hp', List.getD_append_right _ _ _ _ hr, h1.len,
        i3 _ (by omega)]
      simp [PDJoint.ndof]

lemma pdUpdate_inv {g : PDGains} {r : List PDJoint} {dt : ℝ} {out : CtrlVal n} (h : pdUpdate n g r dt = .ok out) :
    pdDofMap r ≠ [] ∧ (∀ j ∈ r, ∀ j' ∈ r, j.ndof = j'.ndof) ∧ ∀ d ∈ pdDofMap r, d < n := by
  unfold pdUpdate pdStack at h
  by_cases hs : ∀ j ∈ r, ∀ j' ∈ r, j.ndof = j'.ndof
  · rw [if_pos hs] at h
    simp only [bind, Except.bind] at h
    split at h
    · cases h
    · rename_i hc
      push Not at hc
      exact ⟨hc.1, hs, hc.2⟩
  · rw [if_neg hs] at h
    cases h

/-- the total force of the controller is the law, at the controlled dofs -/
lemma pd_dot {g : PDGains} {r : List PDJoint} {dt : ℝ} {out : CtrlVal n} (h : pdUpdate n g r dt = .ok out) (hn : (pdDofMap r).Nodup) (v u : Fin n → ℝ) :
    u ⬝ᵥ (out.gforce + out.impedance *ᵥ v) = ∑ i ∈ Finset.range (pdDofMap r).length, (∑ m ∈ Finset.range (pdDofMap r).length,
      (g.kp i m * (g.gposDes m - ((r.flatMap PDJoint.gpos).getD m 0 + dt * wide v ((pdDofMap r).getD m 0))) +
        g.kd i m * (g.gvelDes m - wide v ((pdDofMap r).getD m 0)))) * wide u ((pdDofMap r).getD i 0) := by
  obtain ⟨h1, h2, h3⟩ := pdUpdate_inv h
  obtain ⟨out', ho, hlaw⟩ := C34_law (n := n) g r dt h1 h2 hn h3
  obtain rfl : out = out' := Except.ok.inj (h.symm.trans ho)
  obtain ⟨l1, l2⟩ := hlaw (wide v)
  rw [wide_val] at l1 l2
  have e : out.gforce + out.impedance *ᵥ v = (scatter (pdDofMap r) fun i => ∑ m ∈ Finset.range (pdDofMap r).length,
      (g.kp i m * (g.gposDes m - ((r.flatMap PDJoint.gpos).getD m 0 + dt * wide v ((pdDofMap r).getD m 0))) +
        g.kd i m * (g.gvelDes m - wide v ((pdDofMap r).getD m 0)))) := by
    funext d
    by_cases hd : d.val ∈ pdDofMap r
    · obtain ⟨i, hi, hid⟩ := List.mem_iff_getElem.mp hd
      rw [scatter_mem hn _ hi hid, l1 i hi d hid]
    · rw [scatter_not_mem hn _ hd, l2 d hd]
  rw [e, dotProduct_comm, ← scatter_dot hn h3]
  refine Finset.sum_congr rfl fun d _ => ?_
  rw [← congrFun (wide_val u) d]

/-- a quadratic form, at the end of a move -/
lemma quad_move (k : ℕ) (K : ℕ → ℕ → ℝ) (hs : ∀ i < k, ∀ j < k, K i j = K j i) (e y : ℕ → ℝ) :
    ∑ i ∈ Finset.range k, (∑ m ∈ Finset.range k, K i m * -(e m + y m)) * y i =
      (1 / 2) * (∑ i ∈ Finset.range k, ∑ j ∈ Finset.range k, e i * K i j * e j) -
      (1 / 2) * (∑ i ∈ Finset.range k, ∑ j ∈ Finset.range k, (e i + y i) * K i j * (e j + y j)) -
      (1 / 2) * ∑ i ∈ Finset.range k, ∑ j ∈ Finset.range k, y i * K i j * y j := by
  have hsw : ∑ i ∈ Finset.range k, ∑ j ∈ Finset.range k, e i * K i j * y j = ∑ i ∈ Finset.range k, ∑ j ∈ Finset.range k, y i * K i j * e j := by
    rw [Finset.sum_comm]
    refine Finset.sum_congr rfl fun i hi => Finset.sum_congr rfl fun j hj => ?_
    rw [hs j (Finset.mem_range.mp hj) i (Finset.mem_range.mp hi)]
    ring
  have e1 : ∑ i ∈ Finset.range k, (∑ m ∈ Finset.range k, K i m * -(e m + y m)) * y i =
      -(∑ i ∈ Finset.range k, ∑ j ∈ Finset.range k, y i * K i j * e j) - ∑ i ∈ Finset.range k, ∑ j ∈ Finset.range k, y i * K i j * y j := by
    rw [← Finset.sum_neg_distrib, ← Finset.sum_sub_distrib]
    refine Finset.sum_congr rfl fun i _ => ?_
    rw [Finset.sum_mul, ← Finset.sum_neg_distrib, ← Finset.sum_sub_distrib]
    exact Finset.sum_congr rfl fun j _ => by ring
  have e2 : ∑ i ∈ Finset.range k, ∑ j ∈ Finset.range k, (e i + y i) * K i j * (e j + y j) =
      ∑ i ∈ Finset.range k, ∑ j ∈ Finset.range k, e i * K i j * e j + ∑ i ∈ Finset.range k, ∑ j ∈ Finset.range k, e i * K i j * y j +
      ∑ i ∈ Finset.range k, ∑ j ∈ Finset.range k, y i * K i j * e j + ∑ i ∈ Finset.range k, ∑ j ∈ Finset.range k, y i * K i j * y j := by
    simp only [← Finset.sum_add_distrib]
    exact Finset.sum_congr rfl fun i _ => Finset.sum_congr rfl fun j _ => by ring
  rw [e1, e2, hsw]
  ring

/-- the energy a `ProportionalDerivativeController` gives during a step: what its springs lose, less a loss -/
lemma pd_power {g : PDGains} {r r' : List PDJoint} {dt : ℝ} {out : CtrlVal n} (hdt : 0 < dt) (h : pdUpdate n g r dt = .ok out) (hn : (pdDofMap r).Nodup)
    {v : Fin n → ℝ} (hm : List.Forall₂ (PDMoved dt (wide v)) r r') (hg : GoodGains (r.flatMap PDJoint.gpos).length g) :
    dt * (v ⬝ᵥ (out.gforce + out.impedance *ᵥ v)) ≤ springs g (r.flatMap PDJoint.gpos) - springs g (r'.flatMap PDJoint.gpos) -
      (1 / 2) * dt ^ 2 * ∑ i ∈ Finset.range (pdDofMap r).length, ∑ j ∈ Finset.range (pdDofMap r).length,
        wide v ((pdDofMap r).getD i 0) * g.kp i j * wide v ((pdDofMap r).getD j 0) := by
  obtain ⟨m1, m2, m3⟩ := moved_lists hm
  have hlen : (pdDofMap r).length = (r.flatMap PDJoint.gpos).length := by
    have := (pd_lengths r)
    omega
  set k := (r.flatMap PDJoint.gpos).length with hk
  set q := fun i => (r.flatMap PDJoint.gpos).getD i 0 with hq
  set x := fun i => wide v ((pdDofMap r).getD i 0) with hx
  have hquad := quad_move k g.kp hg.symm (fun i => q i - g.gposDes i) (fun i => dt * x i)
  have hkd := hg.kd x
  have e1 : springs g (r.flatMap PDJoint.gpos) = (1 / 2) * ∑ i ∈ Finset.range k, ∑ j ∈ Finset.range k, (q i - g.gposDes i) * g.kp i j * (q j - g.gposDes j) := rfl
  have e2 : springs g (r'.flatMap PDJoint.gpos) = (1 / 2) * ∑ i ∈ Finset.range k, ∑ j ∈ Finset.range k,
      (q i - g.gposDes i + dt * x i) * g.kp i j * (q j - g.gposDes j + dt * x j) := by
    unfold springs
    rw [m2]
    congr 1
    refine Finset.sum_congr rfl fun i hi => Finset.sum_congr rfl fun j hj => ?_
    rw [m3 i (Finset.mem_range.mp hi), m3 j (Finset.mem_range.mp hj)]
    simp only [q, x]
    ring
  have e3 : dt * (v ⬝ᵥ (out.gforce + out.impedance *ᵥ v)) = ∑ i ∈ Finset.range k, (∑ m ∈ Finset.range k, g.kp i m * -(q m - g.gposDes m + dt * x m)) * (dt * x i) -
      dt * ∑ i ∈ Finset.range k, ∑ j ∈ Finset.range k, x i * g.kd i j * x j := by
    rw [pd_dot h hn v v, hlen, Finset.mul_sum, Finset.mul_sum, ← Finset.sum_sub_distrib]
    refine Finset.sum_congr rfl fun i _ => ?_
    rw [Finset.sum_mul, Finset.mul_sum, Finset.sum_mul, Finset.mul_sum, ← Finset.sum_sub_distrib]
    refine Finset.sum_congr rfl fun m hmm => ?_
    rw [hg.des m (Finset.mem_range.mp hmm)]
    simp only [q, x]
    ring
  have e4 : ∑ i ∈ Finset.range k, ∑ j ∈ Finset.range k, (dt * x i) * g.kp i j * (dt * x j) = dt ^ 2 * ∑ i ∈ Finset.range k, ∑ j ∈ Finset.range k, x i * g.kp i j * x j := by
    rw [Finset.mul_sum]
    refine Finset.sum_congr rfl fun i _ => ?_
    rw [Finset.mul_sum]
    exact Finset.sum_congr rfl fun j _ => by ring
  rw [hlen, e3, e1, e2, hquad, e4]
  nlinarith [mul_nonneg hdt.le hkd]

lemma pointOf_rigid {H : Mat4} (h : IsRigid H) (c : Vec3) : pointOf H c = rot H *ᵥ c + pos H := by
  rw [h.eq_mkH, rot_mkH, pos_mkH]
  ext i
  fin_cases i <;> simp [pointOf, mkH, Matrix.mulVec, dotProduct, Fin.sum_univ_three]

lemma forall₂_left {α β : Type} {R : α → β → Prop} {l : List α} {l' : List β} (h : List.Forall₂ R l l') : ∀ x ∈ l, ∃ y ∈ l', R x y := by
  induction h with
  | nil => simp
  | cons h1 _ ih =>
    intro x hx
    rcases List.mem_cons.mp hx with rfl | hx
    · exact ⟨_, List.mem_cons_self .., h1⟩
    · obtain ⟨y, hy, hr⟩ := ih x hx
      exact ⟨y, by simp [hy], hr⟩

/-- the energy a `WeightController` gives during a step -/
lemma weight_power {γ : ℝ} {up : Vec3} {m : Body → ℝ} {c : Body → Vec3} {I : Body → Mat3} {dt : ℝ} {v : Fin n → ℝ} {bs bs' : List (Body × BodyDyn n)}
    (h : List.Forall₂ (fun x y : Body × BodyDyn n => x.1 = y.1 ∧ Still x.2 ∧ Still y.2 ∧ Slid dt v x.2 y.2) bs bs') (hM : ∀ x ∈ bs, IsRigidMass x.1.mass (m x.1) (c x.1) (I x.1))
    (h0 : ∀ x ∈ bs, 0 ≤ m x.1) {out : CtrlVal n} (ho : weightUpdateE γ up bs = .ok out) :
    dt * (v ⬝ᵥ (out.gforce + out.impedance *ᵥ v)) = -γ * (bs.map fun x => massHeight up x.2.pose (m x.1) (c x.1)).sum -
      -γ * (bs'.map fun x => massHeight up x.2.pose (m x.1) (c x.1)).sum := by
  have hst : ∀ x ∈ bs, Still x.2 := by
    intro x hx
    obtain ⟨y, -, hy⟩ := forall₂_left h x hx
    exact hy.2.1
  have hz : ∀ x ∈ bs, (∀ i j, x.1.mass i j ≤ 0) → x.1.mass *ᵥ (iadjointBody x.2.pose *ᵥ gravityTwist γ up) = 0 := by
    intro x hx hneg
    have hr := hM x hx
    have hz : m x.1 = 0 := by
      refine le_antisymm ?_ (h0 x hx)
      have := hneg 3 3
      simp only [hr.eq] at this
      simpa [blk] using this
    unfold gravityTwist
    rw [iadj_zero, hr.eq, hz, blk_mulVec]
    simp [tw_zero]
  rw [weightUpdateE_ok γ up bs (fun x hx => (hst x hx).pose) hz] at ho
  obtain rfl := Except.ok.inj ho
  dsimp only
  rw [Matrix.zero_mulVec, add_zero]
  clear ho hz hst h0
  induction h with
  | nil => simp
  | @cons x y bs bs' h1 _ ih =>
    have ih := ih fun z hz => hM z (by simp [hz])
    obtain ⟨e1, e2, hy, e3⟩ := h1
    have hr := hM x (by simp)
    have hbody : dt * (v ⬝ᵥ x.2.jacᵀ *ᵥ (x.1.mass *ᵥ (iadjointBody x.2.pose *ᵥ gravityTwist γ up))) =
        -γ * massHeight up x.2.pose (m x.1) (c x.1) - -γ * massHeight up y.2.pose (m y.1) (c y.1) := by
      rw [dot_transpose_mul, tw_of_ang (e2.jac v), gravityTwist, iadj_zero, hr.eq, blk_mulVec, tw_dot, ← e1]
      unfold massHeight
      rw [pointOf_rigid e2.pose, pointOf_rigid hy.pose, e3.rot, e3.pos]
      generalize lin (x.2.jac *ᵥ v) = u
      have : u ⬝ᵥ ((rot x.2.pose)ᵀ *ᵥ up) = up ⬝ᵥ (rot x.2.pose *ᵥ u) := by
        rw [dot_transpose_mul, dotProduct_comm]
      simp only [Matrix.mulVec_smul, Matrix.smul_mulVec, Matrix.one_mulVec, Matrix.mulVec_zero, zero_add, dotProduct_smul, smul_eq_mul, this, dotProduct_add, zero_dotProduct]
      ring
    simp only [List.map_cons, List.sum_cons, dotProduct_add, mul_add] at ih ⊢
    linarith

lemma numbered_le : ∀ {a : ℕ} {ls : List MLink}, Numbered a ls → ∀ {i : ℕ} (hi : i < ls.length), a ≤ ls[i].start
  | _, _ :: _, h, 0, _ => h.1.ge
  | a, l :: ls, h, i + 1, hi => by
    have := numbered_le h.2 (i := i) (by simpa using hi)
    simp only [List.getElem_cons_succ]
    omega

lemma numbered_lt : ∀ {a : ℕ} {ls : List MLink}, Numbered a ls → ∀ {i j : ℕ} (hij : i < j) (hj : j < ls.length),
    (ls[i]'(by omega)).start + (ls[i]'(by omega)).att.ndof ≤ ls[j].start
  | a, l :: ls, h, 0, j + 1, _, hj => by
    have := numbered_le h.2 (i := j) (by simpa using hj)
    simp only [List.getElem_cons_succ, List.getElem_cons_zero, h.1]
    exact this
  | a, l :: ls, h, i + 1, j + 1, hij, hj => by
    simp only [List.getElem_cons_succ]
    exact numbered_lt h.2 (by omega) (by simpa using hj)

lemma pd_len (l : MLink) : l.pd.gpos.length ≤ l.att.ndof := by
  obtain ⟨att, start, b0, b1⟩ := l
  cases att <;> simp [MLink.pd, JAttr.ndof]

lemma mem_pdDofMap {σ : Type} {w : MWorld n σ} {js : List ℕ} {d : ℕ} (h : d ∈ pdDofMap (pdRead w js)) :
    ∃ i ∈ js, ∃ hi : i < w.tree.links.length, w.tree.links[i].start ≤ d ∧ d < w.tree.links[i].start + w.tree.links[i].att.ndof := by
  unfold pdDofMap pdRead at h
  obtain ⟨p, hp, hd⟩ := List.mem_flatMap.mp h
  obtain ⟨i, hi, he⟩ := List.mem_filterMap.mp hp
  obtain ⟨l, hl, rfl⟩ := Option.map_eq_some_iff.mp he
  obtain ⟨hi', rfl⟩ := List.getElem?_eq_some_iff.mp hl
  have := pd_len w.tree.links[i]
  simp only [List.mem_range'_1, PDJoint.ndof] at hd
  exact ⟨i, hi, hi', hd.1, by have := hd.2; simp only [MLink.pd] at *; omega⟩

lemma pdDofMap_nodup {σ : Type} {w : MWorld n σ} (hnum : Numbered 0 w.tree.links) : ∀ {js : List ℕ}, js.Nodup → (pdDofMap (pdRead w js)).Nodup
  | [], _ => by simp [pdDofMap, pdRead]
  | i :: js, h => by
    obtain ⟨h1, h2⟩ := List.nodup_cons.mp h
    have ih := pdDofMap_nodup hnum h2
    by_cases hi : i < w.tree.links.length
    · have e : pdDofMap (pdRead w (i :: js)) = List.range' w.tree.links[i].pd.start w.tree.links[i].pd.ndof ++ pdDofMap (pdRead w js) := by
        unfold pdDofMap pdRead
        rw [List.filterMap_cons_some (b := (w.tree.links[i]).pd) (by simp [hi]), List.flatMap_cons]
      rw [e, List.nodup_append]
      refine ⟨List.nodup_range', ih, ?_⟩
      rintro d hd d' hd' rfl
      obtain ⟨j, hj, hjl, h3, h4⟩ := mem_pdDofMap hd'
      have := pd_len w.tree.links[i]
      simp only [List.mem_range'_1, PDJoint.ndof] at hd
      have h5 : w.tree.links[i].start ≤ d ∧ d < w.tree.links[i].start + w.tree.links[i].att.ndof := ⟨hd.1, by have := hd.2; simp only [MLink.pd] at *; omega⟩
      rcases lt_trichotomy i j with hij | rfl | hij
      · have := numbered_lt hnum hij hjl
        omega
      · exact h1 hj
      · have := numbered_lt hnum hij hi
        omega
    · have e : pdDofMap (pdRead w (i :: js)) = pdDofMap (pdRead w js) := by
        unfold pdDofMap pdRead
        rw [List.filterMap_cons_none (by simp; omega)]
      rw [e]
      exact ih

/-- what does not change during a run -/
structure Sound {σ : Type} (up : Vec3) (m : Body → ℝ) (c : Body → Vec3) (I : Body → Mat3) (cs : List LibCtrl) (w : MWorld n σ) : Prop where
  links : ∀ l ∈ w.tree.links, Sliding l ∧ RigidLink l
  num : Numbered 0 w.tree.links
  bodies : ∀ b ∈ w.tree.bodies, IsRigidMass b.mass (m b) (c b) (I b) ∧ 0 ≤ m b ∧ SymPSD b.mass ∧ SymPSD b.viscosity
  cons : w.cons = []
  ctrl : ∀ x ∈ cs, GoodCtrl w x

lemma askAll_inv {σ : Type} {up : Vec3} {w : MWorld n σ} {dt : ℝ} : ∀ {cs : List LibCtrl} {vals : List (CtrlVal n)}, askAll up w dt cs = .ok vals →
    List.Forall₂ (fun c v => c.update up w dt = .ok v) cs vals
  | [], vals, h => by
    obtain rfl := Except.ok.inj h
    exact .nil
  | c :: cs, vals, h => by
    unfold askAll at h
    cases hc : c.update up w dt with
    | error e => rw [hc] at h; cases h
    | ok v =>
      rw [hc] at h
      cases hs : askAll up w dt cs with
      | error e => rw [hs] at h; cases h
      | ok vs =>
        rw [hs] at h
        obtain rfl := Except.ok.inj h
        exact .cons hc (askAll_inv hs)

lemma numbered_slid {dt : ℝ} {v : Fin n → ℝ} {ls ls' : List MLink} (h : List.Forall₂ (Moved dt v) ls ls') : ∀ {a : ℕ}, Numbered a ls → Numbered a ls' := by
  induction h with
  | nil => exact id
  | @cons l l' ls ls' h1 _ ih =>
    intro a ha
    have hnd : l'.att.ndof = l.att.ndof := by
      obtain ⟨att, start, b0, b1⟩ := l
      obtain ⟨att', start', b0', b1'⟩ := l'
      have := h1.joint
      cases this <;> rfl
    refine ⟨h1.start.trans ha.1, ?_⟩
    rw [hnd]
    exact ih ha.2

lemma dyn_bodies {B : Type} {m : ℕ} (F : Forest Link B) (s : BodyDyn m) : (updateDynamic s F).map (·.1) = F.bodies := by
  induction F generalizing s with
  | nil => rfl
  | cons l b ch sib h1 h2 => simp [updateDynamic, Forest.bodies, h1, h2]

lemma bodies_map {L L' B : Type} (f : L → L') (F : Forest L B) : (F.map f id).bodies = F.bodies := by
  induction F with
  | nil => rfl
  | cons l b ch sib h1 h2 => simp [Forest.map, Forest.bodies, h1, h2]

lemma mem_dyn {σ : Type} {w : MWorld n σ} {x : Body × BodyDyn n} (hx : x ∈ worldDynamic n (linksOf w)) : x.1 ∈ w.tree.bodies := by
  have : x.1 ∈ (worldDynamic n (linksOf w)).map (·.1) := List.mem_map.mpr ⟨x, hx, rfl⟩
  rw [worldDynamic, dyn_bodies, linksOf, bodies_map] at this
  exact this

/-- a step of a sliding mechanism -/
lemma step_facts {up : Vec3} {m : Body → ℝ} {c : Body → Vec3} {I : Body → Mat3} {cs good : List LibCtrl} {dt : ℝ} {w s w' : MWorld n Unit} (hw : Sound up m c I good w)
    (h : WStep (libPlug n up cs) dt w s w') :
    Sound up m c I good w' ∧
    List.Forall₂ (fun x y : Body × BodyDyn n => x.1 = y.1 ∧ Still x.2 ∧ Still y.2 ∧ Slid dt w'.gvel x.2 y.2) (worldDynamic n (linksOf w)) (worldDynamic n (linksOf w')) ∧
    ∃ a : MWorld n Unit, a.tree = w.tree ∧ a.dyn = worldDynamic n (linksOf w) ∧ ∃ vals, List.Forall₂ (fun x v => LibCtrl.update up a dt x = .ok v) cs vals ∧
      worldMass (worldDynamic n (linksOf w)) *ᵥ (w'.gvel - w.gvel) + dt • (worldViscosity (worldDynamic n (linksOf w)) *ᵥ w'.gvel) =
        dt • ((vals.map (·.gforce)).sum + (vals.map (·.impedance)).sum *ᵥ w'.gvel) := by
  obtain ⟨vals, F, hseen, heq⟩ := h.motion
  have hmv := h.tree.links.1
  have hslid := dyn_slid h.tree hw.links (still_ground n) (still_ground n) (slid_ground dt w'.gvel)
  have hF : F = 0 ∧ s.cons = [] := by
    obtain ⟨b, -, -, -, -, hb⟩ := hseen.cons
    rw [hw.cons, List.map_nil] at hb
    generalize hc : s.cons = l at hb
    cases hb
    exact ⟨rfl, rfl⟩
  refine ⟨⟨?_, numbered_slid hmv hw.num, ?_, ?_, ?_⟩, hslid, ?_⟩
  · intro l hl
    obtain ⟨l0, hl0, hm0⟩ := h.tree.mem hl
    exact ⟨(slid_of (hw.links l0 hl0).1 hm0).2, rigid_moved (hw.links l0 hl0).1 (hw.links l0 hl0).2 hm0⟩
  · rw [← h.tree.links.2]
    exact hw.bodies
  · rw [h.cons, hF.2]
  · intro x hx
    have := hw.ctrl x hx
    cases x with
    | weight γ => trivial
    | pd js g =>
      refine ⟨this.1, ?_⟩
      rw [gposOf_read, (moved_lists (read_moved hmv js)).2.1, ← gposOf_read]
      exact this.2
  · obtain ⟨a, h1, h2, h3, h4, h5, h6, h7⟩ := hseen.ctrl
    refine ⟨a, h1, h3.trans hseen.dyn, vals, ?_, ?_⟩
    · simp only [libPlug] at h7
      cases ha : askAll up a dt cs with
      | error e => rw [ha] at h7; cases h7
      | ok vs =>
        rw [ha] at h7
        obtain ⟨-, rfl⟩ := Prod.mk.inj (Except.ok.inj h7)
        exact askAll_inv ha
    · unfold EquationOfMotion at heq
      have hN : s.nleffects = 0 := by
        rw [hseen.nleffects, hseen.dyn]
        exact nl_slid fun x hx => (forall₂_left hslid x hx).choose_spec.2.2.1
      rw [hN, hseen.mass, hseen.viscosity, hseen.dyn, hF.1, add_zero, add_zero] at heq
      have := congrArg (dt • ·) heq
      simp only [Matrix.sub_mulVec, Matrix.add_mulVec, Matrix.smul_mulVec, smul_sub, smul_add, smul_smul, mul_inv_cancel₀ h.pos.ne', one_smul] at this
      rw [Matrix.mulVec_sub, smul_add]
      rw [sub_eq_iff_eq_add] at this
      have h2 : ∀ A B C D E : Fin n → ℝ, A + B = C + D + E → A - C + B = D + E := by
        intro A B C D E e
        rw [sub_add_eq_add_sub, e]
        abel
      exact h2 _ _ _ _ _ this

lemma sum_power {v : Fin n → ℝ} : ∀ vals : List (CtrlVal n), v ⬝ᵥ ((vals.map (·.gforce)).sum + (vals.map (·.impedance)).sum *ᵥ v) =
    (vals.map fun x => v ⬝ᵥ (x.gforce + x.impedance *ᵥ v)).sum
  | [] => by simp
  | x :: vals => by
    rw [List.map_cons, List.map_cons, List.map_cons, List.sum_cons, List.sum_cons, List.sum_cons, ← sum_power vals, Matrix.add_mulVec, ← dotProduct_add]
    congr 1
    abel

/-- the controllers give less than what their potential energies lose -/
lemma ctrl_power {up : Vec3} {m : Body → ℝ} {c : Body → Vec3} {I : Body → Mat3} {cs : List LibCtrl} {dt : ℝ} {w s w' : MWorld n Unit} (hw : Sound up m c I cs w)
    (h : WStep (libPlug n up cs) dt w s w') {a : MWorld n Unit} (ha : a.tree = w.tree) (hd : a.dyn = worldDynamic n (linksOf w)) :
    ∀ {l : List LibCtrl} {vals : List (CtrlVal n)}, (∀ x ∈ l, GoodCtrl w x) → List.Forall₂ (fun x v => LibCtrl.update up a dt x = .ok v) l vals →
      dt * (vals.map fun x => w'.gvel ⬝ᵥ (x.gforce + x.impedance *ᵥ w'.gvel)).sum ≤ (l.map (potential up m c w)).sum - (l.map (potential up m c w')).sum := by
  obtain ⟨-, hslid, -⟩ := step_facts hw h
  intro l vals hl hv
  induction hv with
  | nil => simp
  | @cons x val l vals h1 _ ih =>
    have ih := ih fun y hy => hl y (by simp [hy])
    simp only [List.map_cons, List.sum_cons, mul_add]
    have : dt * (w'.gvel ⬝ᵥ (val.gforce + val.impedance *ᵥ w'.gvel)) ≤ potential up m c w x - potential up m c w' x := by
      cases x with
      | weight γ =>
        have h2 : weightUpdateE γ up a.dyn = .ok val := h1
        rw [hd] at h2
        refine (weight_power hslid (fun x hx => (hw.bodies _ (mem_dyn hx)).1) (fun x hx => (hw.bodies _ (mem_dyn hx)).2.1) h2).le
      | pd js g =>
        have h2 : pdUpdate n g (pdRead a js) dt = .ok val := h1
        have e : pdRead a js = pdRead w js := by unfold pdRead; rw [ha]
        rw [e] at h2
        have hg := hl (.pd js g) (by simp)
        have hp := pd_power h.pos h2 (pdDofMap_nodup hw.num hg.1) (read_moved h.tree.links.1 js) (by rw [← gposOf_read]; exact hg.2)
        change _ ≤ springs g (gposOf w js) - springs g (gposOf w' js)
        rw [gposOf_read, gposOf_read]
        have hlen : (pdDofMap (pdRead w js)).length = (gposOf w js).length := by
          rw [gposOf_read]
          have := pd_lengths (pdRead w js)
          omega
        have := hg.2.kp (fun i => wide w'.gvel ((pdDofMap (pdRead w js)).getD i 0))
        rw [← hlen] at this
        nlinarith [mul_nonneg (sq_nonneg dt) this]
    linarith

/-- a step does not increase the energy -/
lemma energy_step {up : Vec3} {m : Body → ℝ} {c : Body → Vec3} {I : Body → Mat3} {cs : List LibCtrl} {dt : ℝ} {w s w' : MWorld n Unit} (hw : Sound up m c I cs w)
    (h : WStep (libPlug n up cs) dt w s w') : totalEnergy up m c cs w' ≤ totalEnergy up m c cs w := by
  obtain ⟨-, hslid, a, ha, hd, vals, hv, he⟩ := step_facts hw h
  have hp := ctrl_power hw h ha hd hw.ctrl hv
  rw [← sum_power] at hp
  have hM := C27_psd (worldDynamic n (linksOf w)) fun x hx => (hw.bodies _ (mem_dyn hx)).2.2.1
  have hB := C27_viscosity (worldDynamic n (linksOf w)) fun x hx => (hw.bodies _ (mem_dyn hx)).2.2.2
  unfold totalEnergy
  rw [mass_slid hslid]
  set M := worldMass (worldDynamic n (linksOf w))
  set B := worldViscosity (worldDynamic n (linksOf w))
  set v := w.gvel
  set v' := w'.gvel
  have e1 := congrArg (v' ⬝ᵥ ·) he
  simp only [dotProduct_add, dotProduct_smul, smul_eq_mul] at e1
  rw [dotProduct_add] at hp
  have e2 := hM.2 (v' - v)
  have hsym : v ⬝ᵥ M *ᵥ v' = v' ⬝ᵥ M *ᵥ v := by
    rw [dotProduct_comm, ← dot_transpose_mul, hM.1]
  have e3 := hB.2 v'
  simp only [Matrix.mulVec_sub, sub_dotProduct, dotProduct_sub] at e1 e2
  rw [hsym] at e2
  nlinarith [mul_nonneg h.pos.le e3]

/-- what the bodies and joints of the world must be -/
structure Spec.SlidingWorld (m : Body → ℝ) (c : Body → Vec3) (w : MWorld n Unit) : Prop where
  dofs : ndof w.tree = n
  links : ∀ l ∈ w.tree.links, Sliding l ∧ RigidLink l
  bodies : ∀ b ∈ w.tree.bodies, (∃ I, IsRigidMass b.mass (m b) (c b) I) ∧ 0 ≤ m b ∧ SymPSD b.mass ∧ SymPSD b.viscosity
  cons : w.cons = []

lemma gposOf_started {w w0 : MWorld n Unit} (h : Started w w0) (js : List ℕ) : gposOf w0 js = gposOf w js := by
  have h1 := h.tree.links.1
  have hlen := h1.length_eq
  unfold gposOf
  congr 1
  funext i
  by_cases hi : i < w.tree.links.length
  · have hi' : i < w0.tree.links.length := by omega
    have := List.Forall₂.get h1 hi hi'
    simp only [List.get_eq_getElem] at this
    rw [List.getElem?_eq_getElem hi, List.getElem?_eq_getElem hi', this]
    rcases w.tree.links[i] with ⟨att, start, b0, b1⟩
    cases att <;> rfl
  · rw [List.getElem?_eq_none (by omega), List.getElem?_eq_none (by omega)]

lemma sound_started {up : Vec3} {m : Body → ℝ} {c : Body → Vec3} {cs : List LibCtrl} {w w0 : MWorld n Unit} (hw : SlidingWorld m c w) (hg : ∀ x ∈ cs, GoodCtrl w x)
    (h : Started w w0) : ∃ I, Sound up m c I cs w0 := by
  classical
  refine ⟨fun b => if hb : ∃ I, IsRigidMass b.mass (m b) (c b) I then hb.choose else 0, ?_, h.numbered, ?_, ?_, ?_⟩
  · intro l hl
    obtain ⟨l0, hl0, he⟩ := h.tree.mem hl
    obtain ⟨h1, h2⟩ := hw.links l0 hl0
    rw [he]
    exact ⟨h1, ⟨h2.bpose0, h2.bpose1, h2.free⟩⟩
  · rw [← h.tree.links.2]
    intro b hb
    obtain ⟨h1, h2⟩ := hw.bodies b hb
    refine ⟨?_, h2⟩
    rw [dif_pos h1]
    exact h1.choose_spec
  · rw [h.cons, hw.cons]
  · intro x hx
    have := hg x hx
    cases x with
    | weight γ => trivial
    | pd js g =>
      refine ⟨this.1, ?_⟩
      rw [gposOf_started h]
      exact this.2

lemma run_evolves {P : Plug n Unit} {w w' : MWorld n Unit} {tl : List ℝ} {k : ℕ} {tr : List (Ev (MWorld n Unit))} {t' : ℝ} (hn : ndof w.tree = n)
    (h : simulate (engine P) w tl (.list k) = (tr, .ok (w', t'))) :
    ∃ t0 w0 seen, Mech.init w = .ok w0 ∧ Started w w0 ∧ Evolves P tl w0 seen w' ∧ tr = runCalls k t0 w0 tl seen := by
  obtain ⟨t0, rest, w0, seen, h1, -, h2, h3, h4, h5⟩ := (C45_run ..).mp h
  obtain ⟨w0', h6, h7⟩ := init_started hn
  obtain rfl : w0' = w0 := Except.ok.inj (h6.symm.trans h2)
  exact ⟨t0, w0', seen, h6, h7, steps_evolves h3 h7.vel, h4⟩

lemma energy_seen {up : Vec3} {m : Body → ℝ} {c : Body → Vec3} {cs : List LibCtrl} {P : Plug n Unit} {dt : ℝ} {w s w' : MWorld n Unit} (h : WStep P dt w s w') :
    totalEnergy up m c cs s = totalEnergy up m c cs w := by
  obtain ⟨vals, F, hs, -⟩ := h.motion
  have e1 : linksOf s = linksOf w := by unfold linksOf; rw [hs.tree]
  have e2 : ∀ x, potential up m c s x = potential up m c w x := by
    intro x
    cases x with
    | weight γ => unfold potential; rw [e1]
    | pd js g =>
      unfold potential gposOf
      rw [hs.tree]
  unfold totalEnergy
  rw [e1, hs.gvel]
  congr 3
  funext x
  exact e2 x

lemma evolves_energy {up : Vec3} {m : Body → ℝ} {c : Body → Vec3} {I : Body → Mat3} {cs : List LibCtrl} {tl : List ℝ} {w w' : MWorld n Unit}
    {seen : List (ℝ × ℝ × MWorld n Unit)} (h : Evolves (libPlug n up cs) tl w seen w') (hw : Sound up m c I cs w) :
    (totalEnergy up m c cs w :: (seen.map fun s => totalEnergy up m c cs s.2.2) ++ [totalEnergy up m c cs w']).Pairwise (· ≥ ·) := by
  induction h with
  | done t w => simp
  | @step t t' ts w s w' w'' seen hs hrest ih =>
    have h1 := ih (step_facts hw hs).1
    have h2 := energy_step hw hs
    have h3 := energy_seen (up := up) (m := m) (c := c) (cs := cs) hs
    simp only [List.cons_append, List.map_cons] at h1 ⊢
    obtain ⟨h4, h5⟩ := List.pairwise_cons.mp h1
    rw [h3]
    refine List.pairwise_cons.mpr ⟨?_, List.pairwise_cons.mpr ⟨fun y hy => (h4 y hy).trans h2, h5⟩⟩
    intro y hy
    rcases List.mem_cons.mp hy with rfl | hy
    · exact le_refl _
    · exact (h4 y hy).trans h2

/-- C118.  A world whose joints only slide, whose bodies have valid mass and viscosity matrices, without constraints; any weight controllers and
proportional-derivative controllers with gains that are symmetric (`kp`) and positive, of desired velocity zero.  However long the simulation, however
large, small or irregular the steps, and however large the gains: the energy — kinetic, of the springs, of weight — never increases from one state to
the next. -/
theorem C118_energy {up : Vec3} {m : Body → ℝ} {c : Body → Vec3} {cs : List LibCtrl} {w w' : MWorld n Unit} {tl : List ℝ} {k : ℕ}
    {tr : List (Ev (MWorld n Unit))} {t' : ℝ} (hw : SlidingWorld m c w) (hg : ∀ x ∈ cs, GoodCtrl w x)
    (h : simulate (engine (libPlug n up cs)) w tl (.list k) = (tr, .ok (w', t'))) :
    ∃ t0 w0 seen, Mech.init w = .ok w0 ∧ tr = runCalls k t0 w0 tl seen ∧
      (totalEnergy up m c cs w0 :: (seen.map fun s => totalEnergy up m c cs s.2.2) ++ [totalEnergy up m c cs w']).Pairwise (· ≥ ·) := by
  obtain ⟨t0, w0, seen, h1, h2, h3, h4⟩ := run_evolves hw.dofs h
  obtain ⟨I, hs⟩ := sound_started (up := up) hw hg h2
  exact ⟨t0, w0, seen, h1, h4, evolves_energy h3 hs⟩

end
end Arboris
