import Verif.Model.Controllers
import Verif.Props.Dynamics

/-!
# C34, C35: the library's controllers
-/

namespace Arboris
open Matrix Spec

/-! ### C35 -/

lemma weightNorm_ne_zero {M : Mat6} : weightNorm M ≠ 0 ↔ ∃ i j, 0 < M i j := by
  classical
  unfold weightNorm
  rw [Ne, Real.sqrt_eq_zero (by positivity), Finset.sum_eq_zero_iff_of_nonneg (fun i _ => by positivity)]
  simp only [Finset.mem_univ, forall_true_left]
  constructor
  · intro h
    by_contra hc
    push Not at hc
    apply h
    intro i
    apply Finset.sum_eq_zero
    intro j _
    rw [if_neg (not_lt.mpr (hc i j))]; simp
  · rintro ⟨i, j, h⟩ hc
    have := (Finset.sum_eq_zero_iff_of_nonneg (fun j _ => by positivity)).mp (hc i) j (Finset.mem_univ _)
    rw [if_pos h] at this
    simp at this

/-- position of the point `c` of a body with pose `H`, in the ground frame -/
def Spec.pointOf (H : Mat4) (c : Vec3) : Vec3 := fun i => H i.castSucc 0 * c 0 + H i.castSucc 1 * c 1 +
  H i.castSucc 2 * c 2 + H i.castSucc 3

/-- the height of a point for the direction `up`, times its mass: `m · (up · position)` -/
def Spec.massHeight (up : Vec3) (H : Mat4) (m : ℝ) (c : Vec3) : ℝ := m * (up ⬝ᵥ pointOf H c)

lemma weight_body {M : Mat6} {m : ℝ} {c : Vec3} {I : Mat3} (h : IsRigidMass M m c I) {H : ℝ → Mat4} {T : Vec6} {t : ℝ}
    (hH : IsRigid (H t)) (hT : HasTwist H T t) (γ : ℝ) (up : Vec3) :
    HasDerivAt (fun s => γ * massHeight up (H s) m c) (T ⬝ᵥ M *ᵥ (iadjointBody (H t) *ᵥ gravityTwist γ up)) t := by
  have hd : ∀ i : Fin 3, HasDerivAt (fun s => pointOf (H s) c i) (pointOf (H t * hat T) c i) t := by
    intro i
    unfold pointOf
    exact ((((hT i.castSucc 0).mul_const (c 0)).add ((hT i.castSucc 1).mul_const (c 1))).add
      ((hT i.castSucc 2).mul_const (c 2))).add (hT i.castSucc 3)
  have hsum : HasDerivAt (fun s => γ * massHeight up (H s) m c) (γ * (m * (up ⬝ᵥ pointOf (H t * hat T) c))) t := by
    unfold massHeight dotProduct
    simp only [Fin.sum_univ_three]
    exact (((((hd 0).const_mul (up 0)).add ((hd 1).const_mul (up 1))).add ((hd 2).const_mul (up 2))).const_mul m).const_mul γ
  refine hsum.congr_deriv ?_
  rw [h.eq, hat_eq]
  have e1 : iadjointBody (H t) *ᵥ gravityTwist γ up = tw 0 (γ • ((rot (H t))ᵀ *ᵥ up)) := by
    unfold gravityTwist iadjointBody invBody
    rw [adjointBody_mkH, blk_mulVec]
    simp [Matrix.mulVec_smul]
  have e2 : ∀ i : Fin 3, pointOf (H t * mkh (skew (ang T)) (lin T)) c i = (rot (H t) *ᵥ (skew (ang T) *ᵥ c + lin T)) i := by
    intro i
    rw [hH.eq_mkH, mkH_mul_mkh, rot_mkH]
    fin_cases i <;> simp [pointOf, mkh, Matrix.mulVec, dotProduct, Fin.sum_univ_three, Matrix.mul_apply] <;> ring
  rw [e1, blk_mulVec, ← tw_ang_lin T, tw_dot]
  simp only [ang_tw, lin_tw]
  unfold dotProduct
  simp only [Fin.sum_univ_three, e2]
  simp [Matrix.mulVec, dotProduct, Fin.sum_univ_three, skew]
  ring

lemma iadjoint_ok {H : Mat4} (h : IsRigid H) : iadjoint H = .ok (iadjointBody H) := by
  have e1 : inv H = .ok _ := assertHom_ok h.ishom _
  simp only [iadjoint, e1]; exact assertHom_ok h.invBody.ishom _

lemma links_map {L L' B B' : Type} (f : L → L') (g : B → B') (F : Forest L B) :
    (F.map f g).links = F.links.map f := by
  induction F with
  | nil => rfl
  | cons l b ch sib h1 h2 => simp [Forest.map, Forest.links, h1, h2]

lemma weightUpdateE_ok {n : ℕ} (γ : ℝ) (up : Vec3) (bs : List (Body × BodyDyn n)) (h : ∀ x ∈ bs, IsRigid x.2.pose)
    (hz : ∀ x ∈ bs, (∀ i j, x.1.mass i j ≤ 0) → x.1.mass *ᵥ (iadjointBody x.2.pose *ᵥ gravityTwist γ up) = 0) :
    weightUpdateE γ up bs = .ok ⟨(bs.map fun x =>
      x.2.jacᵀ *ᵥ (x.1.mass *ᵥ (iadjointBody x.2.pose *ᵥ gravityTwist γ up))).sum, 0⟩ := by
  classical
  have key : ∀ (l : List (Body × BodyDyn n)) (acc : Fin n → ℝ), (∀ x ∈ l, IsRigid x.2.pose) →
      (l.foldlM (init := acc) fun acc x => do
        let A ← iadjoint x.2.pose
        return acc + x.2.jacᵀ *ᵥ (x.1.mass *ᵥ (A *ᵥ gravityTwist γ up)) : Except PyErr (Fin n → ℝ)) =
      .ok (acc + (l.map fun x => x.2.jacᵀ *ᵥ (x.1.mass *ᵥ (iadjointBody x.2.pose *ᵥ gravityTwist γ up))).sum) := by
    intro l
    induction l with
    | nil => intro acc _; simp; rfl
    | cons x l ih =>
      intro acc hl
      have := hl x List.mem_cons_self
      rw [List.foldlM_cons, iadjoint_ok this]
      have h2 := ih (acc + x.2.jacᵀ *ᵥ (x.1.mass *ᵥ (iadjointBody x.2.pose *ᵥ gravityTwist γ up)))
        (fun y hy => hl y (List.mem_cons_of_mem _ hy))
      rw [List.map_cons, List.sum_cons, ← add_assoc]
      exact h2
  unfold weightUpdateE
  have hk := key (bs.filter fun x => weightNorm x.1.mass ≠ 0) 0 (fun x hx => h x (List.mem_filter.mp hx).1)
  simp only [bind, Except.bind] at hk ⊢
  rw [hk]
  clear hk key h
  refine congrArg (fun v => (Except.ok (⟨v, 0⟩ : CtrlVal n) : Except PyErr (CtrlVal n))) ?_
  rw [zero_add]
  induction bs with
  | nil => rfl
  | cons x l ih =>
    have ih := ih (fun y hy => hz y (List.mem_cons_of_mem _ hy))
    rw [List.filter_cons]
    split_ifs with hx
    · rw [List.map_cons, List.map_cons, List.sum_cons, List.sum_cons, ih]
    · rw [List.map_cons, List.sum_cons, ih, hz x List.mem_cons_self, Matrix.mulVec_zero, zero_add]
      simp only [decide_eq_true_eq, weightNorm_ne_zero] at hx
      push Not at hx
      exact hx

/-- C35.  For any tree of valid moving joints, whose bodies have rigid-body mass matrices (mass `m`, centre of mass `c`):
`WeightController.update` raises nothing, its impedance is zero, and the power of its generalized force on the current
velocity is the derivative of `gravity · Σ m · (up · position of the centre of mass)` — bodies left out by the filter
included. -/
theorem C35_power {n : ℕ} (γ : ℝ) (up : Vec3) (F : Forest LinkT Body) (t : ℝ) (ν : Fin n → ℝ) (m : Body → ℝ)
    (c : Body → Vec3) (I : Body → Mat3) (hv : ∀ l ∈ F.links, ValidLink (l.at t)) (hm : ∀ l ∈ F.links, l.Moving t)
    (hc : ∀ l ∈ F.links, Consistent ν (l.at t)) (hM : ∀ x ∈ F.paths, IsRigidMass x.1.mass (m x.1) (c x.1) (I x.1))
    (h0 : ∀ x ∈ F.paths, 0 ≤ m x.1) :
    ∃ out, weightUpdateE γ up (worldDynamic n (treeAt F t)) = .ok out ∧ out.impedance = 0 ∧
      HasDerivAt (fun s => γ * ((worldDynamic n (treeAt F s)).map fun x => massHeight up x.2.pose (m x.1) (c x.1)).sum)
        (ν ⬝ᵥ out.gforce) t := by
  have hrig : ∀ x ∈ F.paths, IsRigid (dynAt n x.2 t).pose := fun x hx =>
    isRigid_dynAt (fun l hl => hv l (mem_links_of_mem_paths hx hl))
  have htw : ∀ x ∈ F.paths, HasTwist (fun s => (dynAt n x.2 s).pose) (dynAt n x.2 t).twist t := fun x hx =>
    dynAt_hasTwist (fun l hl => hv l (mem_links_of_mem_paths hx hl)) (fun l hl => hm l (mem_links_of_mem_paths hx hl))
  have hjac : ∀ x ∈ F.paths, (dynAt n x.2 t).twist = (dynAt n x.2 t).jac *ᵥ ν := by
    intro x hx
    have hmem : (x.1, dynAt n x.2 t) ∈ worldDynamic n (treeAt F t) := by
      rw [worldDynamic_treeAt]; exact List.mem_map.mpr ⟨x, hx, rfl⟩
    refine C21_twist ν (treeAt F t) ?_ _ hmem
    intro l hl
    rw [treeAt, links_map] at hl
    obtain ⟨l', hl', rfl⟩ := List.mem_map.mp hl
    exact hc l' hl'
  rw [weightUpdateE_ok]
  · refine ⟨_, rfl, rfl, ?_⟩
    simp only [worldDynamic_treeAt, List.map_map]
    clear hv hm hc
    generalize F.paths = P at *
    induction P with
    | nil => simpa using hasDerivAt_const t (0:ℝ)
    | cons x P ih =>
      simp only [List.mem_cons, forall_eq_or_imp] at hrig htw hjac hM h0
      have ih := ih hM.2 h0.2 hrig.2 htw.2 hjac.2
      simp only [List.map_cons, List.sum_cons, Function.comp_apply, mul_add, dotProduct_add] at ih ⊢
      refine HasDerivAt.add ?_ ih
      rw [dot_transpose_mul, ← hjac.1]
      exact weight_body hM.1 hrig.1 htw.1 γ up
  · intro x hx
    rw [worldDynamic_treeAt] at hx
    obtain ⟨y, hy, rfl⟩ := List.mem_map.mp hx
    exact hrig y hy
  · intro x hx hneg
    rw [worldDynamic_treeAt] at hx
    obtain ⟨y, hy, rfl⟩ := List.mem_map.mp hx
    have hr := hM y hy
    have hz : m y.1 = 0 := by
      refine le_antisymm ?_ (h0 y hy)
      have := hneg 3 3
      simp only [hr.eq] at this
      simpa [blk] using this
    unfold gravityTwist iadjointBody invBody
    rw [hr.eq, hz, adjointBody_mkH, blk_mulVec, blk_mulVec]
    simp [tw_zero]

/-- C35: a body of positive mass is never filtered out; the filter only drops matrices without a positive entry. -/
theorem C35_filter {M : Mat6} {m : ℝ} {c : Vec3} {I : Mat3} (h : IsRigidMass M m c I) (hm : 0 < m) :
    weightNorm M ≠ 0 := by
  rw [weightNorm_ne_zero]
  refine ⟨3, 3, ?_⟩
  rw [h.eq]
  simpa [blk] using hm

/-! ### C34 -/

lemma scatter_foldl {n : ℕ} (map : List ℕ) (v : ℕ → ℝ) (d : ℕ) (k : ℕ) (hk : k ≤ map.length) (hn : map.Nodup) (a : ℝ) :
    (∀ i (hi : i < map.length), i < k → map[i] = d →
      (List.range k).foldl (fun acc i => if map.getD i n = d then v i else acc) a = v i) ∧
    ((∀ i (hi : i < map.length), i < k → map[i] ≠ d) →
      (List.range k).foldl (fun acc i => if map.getD i n = d then v i else acc) a = a) := by
  induction k with
  | zero => simp
  | succ k ih =>
    have ih := ih (by omega)
    have hg : map.getD k n = map[k] := by simp [List.getD, List.getElem?_eq_getElem (show k < map.length by omega)]
    rw [List.range_succ, List.foldl_append]
    simp only [List.foldl_cons, List.foldl_nil, hg]
    constructor
    · intro i hi hik he
      by_cases hkd : map[k] = d
      · rw [if_pos hkd]
        have : i = k := (List.Nodup.getElem_inj_iff hn).mp (he.trans hkd.symm)
        rw [this]
      · rw [if_neg hkd]
        refine ih.1 i hi ?_ he
        rcases Nat.lt_succ_iff_lt_or_eq.mp hik with h | h
        · exact h
        · subst h; exact absurd he hkd
    · intro hne
      rw [if_neg (hne k (by omega) (by omega))]
      exact ih.2 fun i hi hik => hne i hi (by omega)

lemma scatter_mem {n : ℕ} {map : List ℕ} (hn : map.Nodup) (v : ℕ → ℝ) {i : ℕ} (hi : i < map.length) {d : Fin n}
    (h : map[i] = d.val) : (scatter map v : Fin n → ℝ) d = v i :=
  (scatter_foldl map v d.val map.length le_rfl hn 0).1 i hi hi h

lemma scatter_not_mem {n : ℕ} {map : List ℕ} (hn : map.Nodup) (v : ℕ → ℝ) {d : Fin n} (h : d.val ∉ map) :
    (scatter map v : Fin n → ℝ) d = 0 :=
  (scatter_foldl map v d.val map.length le_rfl hn 0).2 fun _ hi _ he => h (he ▸ List.getElem_mem hi)

lemma scatter2_row {n : ℕ} {map : List ℕ} (hn : map.Nodup) (V : ℕ → ℕ → ℝ) {i : ℕ} (hi : i < map.length) {d : Fin n}
    (h : map[i] = d.val) : (scatter2 map V : Matrix (Fin n) (Fin n) ℝ) d = scatter map (V i) := by
  funext e
  exact (scatter_foldl map (fun i => scatter map (V i) e) d.val map.length le_rfl hn 0).1 i hi hi h

lemma scatter2_row_zero {n : ℕ} {map : List ℕ} (hn : map.Nodup) (V : ℕ → ℕ → ℝ) {d : Fin n} (h : d.val ∉ map) :
    (scatter2 map V : Matrix (Fin n) (Fin n) ℝ) d = 0 := by
  funext e
  exact (scatter_foldl map (fun i => scatter map (V i) e) d.val map.length le_rfl hn 0).2
    fun _ hi _ he => h (he ▸ List.getElem_mem hi)

/-- gathering: `Σ_e scatter(e) x(e) = Σ_i v(i) x(map[i])` -/
lemma scatter_dot {n : ℕ} {map : List ℕ} (hn : map.Nodup) (hlt : ∀ d ∈ map, d < n) (v : ℕ → ℝ) (x : ℕ → ℝ) :
    ∑ e : Fin n, (scatter map v : Fin n → ℝ) e * x e.val =
      ∑ m ∈ Finset.range map.length, v m * x (map.getD m 0) := by
  classical
  rw [← Finset.sum_subset (Finset.subset_univ (Finset.univ.filter fun e : Fin n => e.val ∈ map))]
  · symm
    refine Finset.sum_bij (fun m hm => ⟨map[m]'(Finset.mem_range.mp hm), hlt _ (List.getElem_mem _)⟩) ?_ ?_ ?_ ?_
    · intro m hm; simp
    · intro a ha b hb hab
      simp only [Fin.mk.injEq] at hab
      exact (List.Nodup.getElem_inj_iff hn).mp hab
    · intro e he
      simp only [Finset.mem_filter, Finset.mem_univ, true_and] at he
      obtain ⟨i, hi, he⟩ := List.getElem_of_mem he
      exact ⟨i, Finset.mem_range.mpr hi, Fin.ext he⟩
    · intro m hm
      have hm' := Finset.mem_range.mp hm
      rw [scatter_mem hn v hm' rfl]
      simp [List.getD, List.getElem?_eq_getElem hm']
  · intro e _ he
    simp only [Finset.mem_filter, Finset.mem_univ, true_and] at he
    rw [scatter_not_mem hn v he, zero_mul]

lemma pd_lengths (js : List PDJoint) : (pdDofMap js).length = pdCndof js ∧
    (js.flatMap PDJoint.gpos).length = pdCndof js := by
  unfold pdDofMap pdCndof
  simp [List.length_flatMap, PDJoint.ndof]
  rfl

/-- C34.  Linear joints all with the same number of dofs, with distinct dofs in the world: `update` succeeds, and for any
end-of-step velocity `ν`, with the end-of-step position `q⁺ = q + dt·ν`, the force `gforce + impedance·ν` on the `i`-th
controlled dof is `Σ kp (q_d - q⁺) + Σ kd (dq_d - ν)`, and zero on the dofs that are not controlled. -/
theorem C34_law {n : ℕ} (g : PDGains) (js : List PDJoint) (dt : ℝ) (hne : pdDofMap js ≠ [])
    (hsame : ∀ j ∈ js, ∀ j' ∈ js, j.ndof = j'.ndof) (hn : (pdDofMap js).Nodup) (hlt : ∀ d ∈ pdDofMap js, d < n) :
    ∃ out, pdUpdate n g js dt = .ok out ∧ ∀ ν : ℕ → ℝ,
      (∀ (i : ℕ) (hi : i < (pdDofMap js).length) (d : Fin n), (pdDofMap js)[i] = d.val →
        (out.gforce + out.impedance *ᵥ fun e => ν e.val) d =
          ∑ m ∈ Finset.range (pdDofMap js).length,
            (g.kp i m * (g.gposDes m - ((js.flatMap PDJoint.gpos).getD m 0 + dt * ν ((pdDofMap js).getD m 0))) +
             g.kd i m * (g.gvelDes m - ν ((pdDofMap js).getD m 0)))) ∧
      (∀ d : Fin n, d.val ∉ pdDofMap js → (out.gforce + out.impedance *ᵥ fun e => ν e.val) d = 0) := by
  refine ⟨_, by
    unfold pdUpdate pdStack
    simp only [if_pos hsame, bind, Except.bind]
    rw [if_neg (by push Not; exact ⟨hne, hlt⟩)]
    rfl, fun ν => ⟨?_, ?_⟩⟩
  · intro i hi d hd
    rw [Pi.add_apply]
    dsimp only
    rw [scatter_mem hn _ hi hd, Matrix.mulVec, scatter2_row hn _ hi hd]
    unfold dotProduct
    rw [scatter_dot hn hlt _ ν]
    unfold pdDot
    rw [(pd_lengths js).1, ← Finset.sum_add_distrib, ← Finset.sum_add_distrib]
    apply Finset.sum_congr rfl
    intro m _
    ring
  · intro d hd
    rw [Pi.add_apply]
    dsimp only
    rw [scatter_not_mem hn _ hd, Matrix.mulVec, scatter2_row_zero hn _ hd]
    simp

lemma pdDofMap_get {k : ℕ} : ∀ (js : List PDJoint), (∀ j ∈ js, j.ndof = k) → ∀ (a c : ℕ) (ha : a < js.length), c < k →
    (pdDofMap js)[a * k + c]? = some ((js[a]).start + c) ∧
      (js.flatMap PDJoint.gpos).getD (a * k + c) 0 = (js[a]).gpos.getD c 0
  | [], _, _, _, ha, _ => absurd ha (by simp)
  | j :: js, hk, 0, c, _, hc => by
    have h0 : j.gpos.length = k := hk j (by simp)
    constructor
    · rw [pdDofMap, List.flatMap_cons, List.getElem?_append_left (by simp [PDJoint.ndof]; omega)]
      simp [PDJoint.ndof, h0, hc]
    · simp only [List.flatMap_cons, List.getD]
      rw [List.getElem?_append_left (by omega)]
      simp
  | j :: js, hk, a + 1, c, ha, hc => by
    have h0 : j.gpos.length = k := hk j (by simp)
    have ih := pdDofMap_get js (fun x hx => hk x (by simp [hx])) a c (by simpa using ha) hc
    have e : (a + 1) * k + c = k + (a * k + c) := by ring
    constructor
    · rw [pdDofMap, List.flatMap_cons, List.getElem?_append_right (by simp [PDJoint.ndof]; nlinarith)]
      have : (a + 1) * k + c - (List.range' j.start j.ndof).length = a * k + c := by
        simp [PDJoint.ndof, h0, e]
      rw [this]
      exact ih.1
    · simp only [List.flatMap_cons, List.getD]
      rw [List.getElem?_append_right (by omega), h0, e, Nat.add_sub_cancel_left]
      exact ih.2

lemma sum_range_mul (f : ℕ → ℝ) (k : ℕ) : ∀ m : ℕ, ∑ i ∈ Finset.range (m * k), f i =
    ∑ b ∈ Finset.range m, ∑ e ∈ Finset.range k, f (b * k + e)
  | 0 => by simp
  | m + 1 => by
    rw [add_mul, one_mul, Finset.sum_range_add, sum_range_mul f k m, Finset.sum_range_succ]

/-- C34 again, said joint by joint: a list of joints of `k` dofs each, occupying the disjoint ranges
`start, ..., start + k - 1` of the `n` dofs of the world.  The force on the `c`-th dof of the `a`-th joint is the sum over
the joints `b` and their dofs `e` of the gains `kp, kd` (numbered `k` by joint, in the order of the list) times the errors
of position and velocity of joint `b` at the end of the step; the dofs of the other joints get nothing. -/
theorem C34_joints {n k : ℕ} (g : PDGains) (js : List PDJoint) (dt : ℝ) (hne : js ≠ []) (hpos : 0 < k)
    (hk : ∀ j ∈ js, j.gpos.length = k) (hlt : ∀ j ∈ js, j.start + k ≤ n)
    (hdis : js.Pairwise fun j j' => j.start + k ≤ j'.start ∨ j'.start + k ≤ j.start) :
    ∃ out, pdUpdate n g js dt = .ok out ∧ ∀ ν : ℕ → ℝ,
      (∀ (a c : ℕ) (ha : a < js.length), c < k → ∀ d : Fin n, d.val = (js[a]).start + c →
        (out.gforce + out.impedance *ᵥ fun e => ν e.val) d =
          ∑ b : Fin js.length, ∑ e ∈ Finset.range k,
            (g.kp (a * k + c) (b.val * k + e) *
                (g.gposDes (b.val * k + e) - ((js.get b).gpos.getD e 0 + dt * ν ((js.get b).start + e))) +
              g.kd (a * k + c) (b.val * k + e) * (g.gvelDes (b.val * k + e) - ν ((js.get b).start + e)))) ∧
      (∀ d : Fin n, (∀ j ∈ js, ¬ (j.start ≤ d.val ∧ d.val < j.start + k)) →
        (out.gforce + out.impedance *ᵥ fun e => ν e.val) d = 0) := by
  have hmem : ∀ d, d ∈ pdDofMap js ↔ ∃ j ∈ js, j.start ≤ d ∧ d < j.start + k := by
    intro d
    simp only [pdDofMap, List.mem_flatMap, List.mem_range'_1, PDJoint.ndof]
    exact ⟨fun ⟨j, h, h'⟩ => ⟨j, h, by rwa [hk j h] at h'⟩, fun ⟨j, h, h'⟩ => ⟨j, h, by rwa [hk j h]⟩⟩
  have hlen : (pdDofMap js).length = js.length * k := by
    have : ∀ l : List PDJoint, (∀ j ∈ l, j.gpos.length = k) → (pdDofMap l).length = l.length * k := by
      intro l
      induction l with
      | nil => simp [pdDofMap]
      | cons j l ih =>
        intro h
        have := ih fun x hx => h x (by simp [hx])
        simp only [pdDofMap, List.flatMap_cons, List.length_append, List.length_range', PDJoint.ndof,
          List.length_cons] at this ⊢
        rw [this, h j (by simp)]; ring
    exact this js hk
  obtain ⟨out, ho, hν⟩ := C34_law (n := n) g js dt
    (by
      obtain ⟨j, hj⟩ := List.exists_mem_of_ne_nil js hne
      intro h
      have := (hmem j.start).mpr ⟨j, hj, le_refl _, by omega⟩
      rw [h] at this; simp at this)
    (fun j hj j' hj' => (hk j hj).trans (hk j' hj').symm)
    (by
      rw [pdDofMap, List.nodup_flatMap]
      refine ⟨fun j _ => List.nodup_range', hdis.imp_of_mem ?_⟩
      intro j j' hj hj' h d hd hd'
      simp only [List.mem_range'_1, PDJoint.ndof, hk j hj, hk j' hj'] at hd hd'
      omega)
    (fun d hd => by obtain ⟨j, hj, h⟩ := (hmem d).mp hd; have := hlt j hj; omega)
  refine ⟨out, ho, fun ν => ⟨?_, fun d hd => (hν ν).2 d fun hm => ?_⟩⟩
  · intro a c ha hc d hd
    have hg := pdDofMap_get js hk a c ha hc
    obtain ⟨hi, hgi⟩ := List.getElem?_eq_some_iff.mp hg.1
    rw [(hν ν).1 _ hi d (hgi.trans hd.symm), hlen, sum_range_mul, Finset.sum_range]
    apply Finset.sum_congr rfl
    intro b _
    apply Finset.sum_congr rfl
    intro e he
    have hb := pdDofMap_get js hk b.val e b.isLt (Finset.mem_range.mp he)
    have h1 : (pdDofMap js).getD (b.val * k + e) 0 = (js.get b).start + e := by
      unfold List.getD
      rw [hb.1]
      rfl
    rw [hb.2, h1]
    rfl
  · obtain ⟨j, hj, h⟩ := (hmem _).mp hm
    exact hd j hj h

/-- C34: with joints of different numbers of dofs `update` always raises `ValueError`. -/
theorem C34_mixed {n : ℕ} (g : PDGains) (js : List PDJoint) (dt : ℝ) {j j' : PDJoint} (h : j ∈ js) (h' : j' ∈ js)
    (hne : j.ndof ≠ j'.ndof) : pdUpdate n g js dt = .error .valueError := by
  unfold pdUpdate pdStack
  rw [if_neg (fun hc => hne (hc j h j' h'))]
  rfl

/-- two two-dof joints at dofs 3..4 and 0..1 of a world of 5 dofs meet the hypotheses -/
example : let js : List PDJoint := [⟨3, [1, 2]⟩, ⟨0, [3, 4]⟩]
    pdDofMap js ≠ [] ∧ (∀ j ∈ js, ∀ j' ∈ js, j.ndof = j'.ndof) ∧ (pdDofMap js).Nodup ∧ ∀ d ∈ pdDofMap js, d < 5 := by
  simp [pdDofMap, PDJoint.ndof, List.range']

/-- and those of `C34_joints` -/
example : let js : List PDJoint := [⟨3, [1, 2]⟩, ⟨0, [3, 4]⟩]
    js ≠ [] ∧ (∀ j ∈ js, j.gpos.length = 2) ∧ (∀ j ∈ js, j.start + 2 ≤ 5) ∧
      js.Pairwise fun j j' => j.start + 2 ≤ j'.start ∨ j'.start + 2 ≤ j.start := by
  simp

/-- a world of two bodies, the second massless, on `RzJoint`s meets the hypotheses of C35 -/
example : IsRigidMass (blk 1 ((2 : ℝ) • skew ![1,0,0]) (-((2 : ℝ) • skew ![1,0,0])) ((2 : ℝ) • 1)) 2 ![1,0,0] 1 ∧
    IsRigidMass 0 0 0 0 :=
  ⟨⟨by simp, rfl⟩, ⟨by simp, by
    ext i j; simp [blk]⟩⟩

end Arboris
