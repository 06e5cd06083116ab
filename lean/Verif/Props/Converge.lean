import Verif.Props.PDStable
import Verif.Proofs.Euler
import Mathlib.Analysis.SpecialFunctions.Exponential
import Mathlib.Topology.Algebra.Module.FiniteDimension

/-!
# C130: simulations converge to the exact motion of sliding mechanisms
-/

namespace Arboris
open Matrix Spec Mech Build Sim

/-! ### specification -/

/-- the coordinates of the joint are those of its dofs in `x` -/
def Spec.HasPos {n : ℕ} (x : Fin n → ℝ) (l : MLink) : Prop :=
  match l.att with
  | .lin k q _ => ∃ h : l.start + k.ndof ≤ n, q = slice x l.start k.ndof h
  | _ => True

/-- the dofs of the joints of ranks `js`, one after the other -/
def Spec.dofsOf {n : ℕ} {σ : Type} (w : MWorld n σ) (js : List ℕ) : List ℕ :=
  js.flatMap fun i => match (w.tree.links[i]? : Option MLink) with
    | some ⟨.lin k _ _, start, _, _⟩ => List.range' start k.ndof
    | _ => []

/-- a component of a vector -/
noncomputable def Spec.entry {n : ℕ} (x : Fin n → ℝ) (d : ℕ) : ℝ := if h : d < n then x ⟨d, h⟩ else 0

/-- `force`, of components given by dof: proportional to the errors of position and velocity of the dofs `ds` -/
noncomputable def Spec.pdForce {n : ℕ} (g : PDGains) (ds : List ℕ) (x u : Fin n → ℝ) : Fin n → ℝ := fun e =>
  ∑ i : Fin ds.length, if ds[i] = e.val then
    ∑ j : Fin ds.length, (g.kp i j * (g.gposDes j - entry x ds[j]) + g.kd i j * (g.gvelDes j - entry u ds[j])) else 0

/-- the force of weight at a dof is the power of weight when the speed of this dof is one: `up` is upwards, `γ` the (negative) acceleration of gravity -/
noncomputable def Spec.weightForce {n : ℕ} (γ : ℝ) (up : Vec3) (m : Body → ℝ) (bs : List (Body × BodyDyn n)) : Fin n → ℝ := fun e =>
  (bs.map fun x => m x.1 * γ * (up ⬝ᵥ (rot x.2.pose *ᵥ lin (x.2.jac *ᵥ Pi.single e 1)))).sum

/-- force of a controller when the coordinates are `x` and the velocities `u` -/
noncomputable def Spec.forceOf {n : ℕ} {σ : Type} (up : Vec3) (m : Body → ℝ) (w : MWorld n σ) (x u : Fin n → ℝ) : LibCtrl → (Fin n → ℝ)
  | .weight γ => weightForce γ up m (worldDynamic n (linksOf w))
  | .pd js g => pdForce g (dofsOf w js) x u

/-- the gains of `k` dofs are positive (not strictly), those of proportionality symmetric -/
structure Spec.TameGains (k : ℕ) (g : PDGains) : Prop where
  symm : ∀ i < k, ∀ j < k, g.kp i j = g.kp j i
  kp : ∀ x : ℕ → ℝ, 0 ≤ ∑ i ∈ Finset.range k, ∑ j ∈ Finset.range k, x i * g.kp i j * x j
  kd : ∀ x : ℕ → ℝ, 0 ≤ ∑ i ∈ Finset.range k, ∑ j ∈ Finset.range k, x i * g.kd i j * x j

/-- a `WeightController`; or a `ProportionalDerivativeController` of different joints, with such gains -/
def Spec.TameCtrl {n : ℕ} {σ : Type} (w : MWorld n σ) : LibCtrl → Prop
  | .weight _ => True
  | .pd js g => js.Nodup ∧ TameGains (dofsOf w js).length g

/-- `x`, `u`, `a` (coordinates, velocities, accelerations, functions of time) are the motion of the mechanism from `t0` to `T`: it starts as `w` and satisfies
the equations of motion — the forces are those of the controllers — at every time -/
structure Spec.ExactMotion {n : ℕ} (up : Vec3) (m : Body → ℝ) (cs : List LibCtrl) (w : MWorld n Unit) (t0 T : ℝ) (x u a : ℝ → Fin n → ℝ) : Prop where
  pos : ∀ l ∈ w.tree.links, HasPos (x t0) l
  vel : u t0 = w.gvel
  dx : ∀ t ∈ Set.Icc t0 T, HasDerivAt x (u t) t
  du : ∀ t ∈ Set.Icc t0 T, HasDerivAt u (a t) t
  law : ∀ t ∈ Set.Icc t0 T, worldMass (worldDynamic n (linksOf w)) *ᵥ a t + worldViscosity (worldDynamic n (linksOf w)) *ᵥ u t =
    (cs.map (forceOf up m w (x t) (u t))).sum

/-- the coordinates and the velocities of the world are `x` and `u`, with an error of at most `ε` for each -/
def Spec.CloseTo {n : ℕ} {σ : Type} (x u : Fin n → ℝ) (ε : ℝ) (w : MWorld n σ) : Prop :=
  (∀ e, |w.gvel e - u e| ≤ ε) ∧ ∀ l ∈ w.tree.links, match l.att with
    | .lin k q dq => ∃ h : l.start + k.ndof ≤ n, ∀ i, |q i - slice x l.start k.ndof h i| ≤ ε ∧ |dq i - slice u l.start k.ndof h i| ≤ ε
    | _ => True

/-! ### forces -/

section
variable {n : ℕ}

lemma entry_wide (x : Fin n → ℝ) : entry x = wide x := rfl

lemma dofsOf_read {σ : Type} (w : MWorld n σ) (js : List ℕ) : dofsOf w js = pdDofMap (pdRead w js) := by
  unfold dofsOf pdDofMap pdRead
  induction js with
  | nil => rfl
  | cons i js ih =>
    rw [List.flatMap_cons, ih]
    cases hl : w.tree.links[i]? with
    | none =>
      rw [List.filterMap_cons_none (by simp [hl])]
      rfl
    | some l =>
      rw [List.filterMap_cons_some (b := l.pd) (by simp [hl]), List.flatMap_cons]
      obtain ⟨att, start, b0, b1⟩ := l
      cases att with
      | lin k q dq => simp [MLink.pd, PDJoint.ndof]
      | free H T => simp [MLink.pd, PDJoint.ndof]
      | fixed => simp [MLink.pd, PDJoint.ndof]

lemma read_pos {σ : Type} {w : MWorld n σ} {x : Fin n → ℝ} (h : ∀ l ∈ w.tree.links, HasPos x l) (js : List ℕ) :
    (pdRead w js).flatMap PDJoint.gpos = (dofsOf w js).map (entry x) := by
  rw [← gposOf_read]
  unfold gposOf dofsOf
  rw [List.map_flatMap]
  congr 1
  funext i
  cases hl : w.tree.links[i]? with
  | none => rfl
  | some l =>
    have hm := h l (List.mem_of_getElem? hl)
    obtain ⟨att, start, b0, b1⟩ := l
    cases att with
    | lin k q dq =>
      obtain ⟨hb, hq⟩ := hm
      dsimp only at hb hq ⊢
      rw [hq]
      refine List.ext_getElem (by simp) fun j h1 h2 => ?_
      have : j < k.ndof := by simpa using h1
      simp only [List.getElem_ofFn, List.getElem_map, List.getElem_range', entry, slice, one_mul]
      rw [dif_pos (by omega)]
    | free H T => rfl
    | fixed => rfl

/-- the force of a `ProportionalDerivativeController` during a step is what it would be at the end -/
lemma pd_force {σ : Type} {w : MWorld n σ} {x : Fin n → ℝ} (hx : ∀ l ∈ w.tree.links, HasPos x l) {js : List ℕ} {g : PDGains} {dt : ℝ} {out : CtrlVal n}
    (h : pdUpdate n g (pdRead w js) dt = .ok out) (hn : (dofsOf w js).Nodup) (v : Fin n → ℝ) :
    out.gforce + out.impedance *ᵥ v = pdForce g (dofsOf w js) (x + dt • v) v := by
  have hg := read_pos hx js
  rw [dofsOf_read] at hn hg ⊢
  obtain ⟨h1, h2, h3⟩ := pdUpdate_inv h
  obtain ⟨out', ho, hlaw⟩ := C34_law (n := n) g _ dt h1 h2 hn h3
  obtain rfl : out = out' := Except.ok.inj (h.symm.trans ho)
  obtain ⟨l1, l2⟩ := hlaw (wide v)
  rw [wide_val] at l1 l2
  funext d
  set ds := pdDofMap (pdRead w js) with hds
  by_cases hd : d.val ∈ ds
  · obtain ⟨i, hi, hid⟩ := List.mem_iff_getElem.mp hd
    rw [l1 i hi d hid]
    unfold pdForce
    rw [Finset.sum_range]
    symm
    rw [Finset.sum_eq_single ⟨i, hi⟩]
    · rw [if_pos (by simpa using hid)]
      symm
      refine Finset.sum_congr rfl fun m _ => ?_
      have e1 : ((pdRead w js).flatMap PDJoint.gpos).getD m.val 0 = entry x ds[m] := by
        rw [hg]
        simp [List.getD_eq_getElem?_getD]
      have e2 : ds.getD m.val 0 = ds[m] := by simp [List.getD_eq_getElem?_getD]
      have hb := h3 ds[m] (List.getElem_mem _)
      rw [e1, e2]
      simp only [entry, wide, dif_pos hb, Pi.add_apply, Pi.smul_apply, smul_eq_mul]
    · intro j _ hj
      rw [if_neg]
      intro he
      refine hj (Fin.ext ?_)
      exact (List.Nodup.getElem_inj_iff hn).mp (he.trans hid.symm)
    · intro h0
      exact absurd (Finset.mem_univ _) h0
  · rw [l2 d hd]
    unfold pdForce
    refine (Finset.sum_eq_zero fun i _ => ?_).symm
    rw [if_neg]
    intro he
    exact hd (he ▸ List.getElem_mem _)

lemma weight_force {γ : ℝ} {up : Vec3} {m : Body → ℝ} {c : Body → Vec3} {I : Body → Mat3} {bs : List (Body × BodyDyn n)} (hs : ∀ x ∈ bs, Still x.2)
    (hM : ∀ x ∈ bs, IsRigidMass x.1.mass (m x.1) (c x.1) (I x.1)) (h0 : ∀ x ∈ bs, 0 ≤ m x.1) {out : CtrlVal n} (ho : weightUpdateE γ up bs = .ok out) (v : Fin n → ℝ) :
    out.gforce + out.impedance *ᵥ v = weightForce γ up m bs := by
  have hz : ∀ x ∈ bs, (∀ i j, x.1.mass i j ≤ 0) → x.1.mass *ᵥ (iadjointBody x.2.pose *ᵥ gravityTwist γ up) = 0 := by
    intro x hx hneg
    have hr := hM x hx
    have hz : m x.1 = 0 := by
      refine le_antisymm ?_ (h0 x hx)
      have := hneg 3 3
      simp only [hr.eq] at this
      simpa [blk] using this
    unfold gravityTwist
    rw [iadj_zero, hr.eq, hz, blk_mulVec]
    simp [tw_zero]
  rw [weightUpdateE_ok γ up bs (fun x hx => (hs x hx).pose) hz] at ho
  obtain rfl := Except.ok.inj ho
  dsimp only
  rw [Matrix.zero_mulVec, add_zero]
  clear ho hz h0
  funext e
  unfold weightForce
  induction bs with
  | nil => simp
  | cons x bs ih =>
    have ih := ih (fun y hy => hs y (by simp [hy])) fun y hy => hM y (by simp [hy])
    have hr := hM x (by simp)
    have hx := hs x (by simp)
    have hb : (x.2.jacᵀ *ᵥ (x.1.mass *ᵥ (iadjointBody x.2.pose *ᵥ gravityTwist γ up))) e = m x.1 * γ * (up ⬝ᵥ (rot x.2.pose *ᵥ lin (x.2.jac *ᵥ Pi.single e 1))) := by
      have e0 : ∀ y : Fin n → ℝ, y e = Pi.single e 1 ⬝ᵥ y := fun y => by simp
      rw [e0 (x.2.jacᵀ *ᵥ _), dot_transpose_mul, tw_of_ang (hx.jac _), gravityTwist, iadj_zero, hr.eq, blk_mulVec, tw_dot]
      generalize lin (x.2.jac *ᵥ Pi.single e 1) = u
      have : u ⬝ᵥ ((rot x.2.pose)ᵀ *ᵥ up) = up ⬝ᵥ (rot x.2.pose *ᵥ u) := by
        rw [dot_transpose_mul, dotProduct_comm]
      simp only [Matrix.mulVec_smul, Matrix.smul_mulVec, Matrix.one_mulVec, Matrix.mulVec_zero, zero_add, dotProduct_smul, smul_eq_mul, this, zero_dotProduct, lin_tw]
      ring
    rw [List.map_cons, List.sum_cons, List.map_cons, List.sum_cons, Pi.add_apply, ih, hb]

/-! ### what does not change -/

/-- same bodies, which have not turned, same dofs -/
structure Unturned {σ : Type} (w0 w : MWorld n σ) : Prop where
  dyn : List.Forall₂ (fun x y : Body × BodyDyn n => x.1 = y.1 ∧ y.2.jac = x.2.jac ∧ rot y.2.pose = rot x.2.pose) (worldDynamic n (linksOf w0)) (worldDynamic n (linksOf w))
  dofs : ∀ js, dofsOf w js = dofsOf w0 js

lemma unturned_refl {σ : Type} (w : MWorld n σ) : Unturned w w := ⟨List.forall₂_same.mpr fun _ _ => ⟨rfl, rfl, rfl⟩, fun _ => rfl⟩

lemma unturned_trans {α : Type} {R S T : α → α → Prop} (hR : ∀ a b c, R a b → S b c → T a c) : ∀ {l1 l2 l3 : List α}, List.Forall₂ R l1 l2 → List.Forall₂ S l2 l3 → List.Forall₂ T l1 l3
  | _, _, _, .nil, .nil => .nil
  | _, _, _, .cons h1 h2, .cons h3 h4 => .cons (hR _ _ _ h1 h3) (unturned_trans hR h2 h4)

lemma unturned_mass {bs bs' : List (Body × BodyDyn n)}
    (h : List.Forall₂ (fun x y : Body × BodyDyn n => x.1 = y.1 ∧ y.2.jac = x.2.jac ∧ rot y.2.pose = rot x.2.pose) bs bs') :
    worldMass bs' = worldMass bs ∧ worldViscosity bs' = worldViscosity bs := by
  unfold worldMass worldViscosity
  generalize (0 : Matrix (Fin n) (Fin n) ℝ) = A
  suffices ∀ A B : Matrix (Fin n) (Fin n) ℝ, bs'.foldl _ A = bs.foldl _ A ∧ bs'.foldl _ B = bs.foldl _ B from this A A
  intro A B
  induction h generalizing A B with
  | nil => exact ⟨rfl, rfl⟩
  | cons h1 _ ih =>
    simp only [List.foldl_cons]
    rw [h1.2.1, ← h1.1]
    exact ih _ _

lemma Unturned.force {σ : Type} {w0 w : MWorld n σ} (h : Unturned w0 w) (up : Vec3) (m : Body → ℝ) (x u : Fin n → ℝ) (c : LibCtrl) :
    forceOf up m w x u c = forceOf up m w0 x u c := by
  cases c with
  | weight γ =>
    have h1 := h.dyn
    unfold forceOf weightForce
    funext e
    dsimp only
    generalize worldDynamic n (linksOf w0) = l at *
    generalize worldDynamic n (linksOf w) = l' at *
    induction h1 with
    | nil => rfl
    | cons h2 _ ih => rw [List.map_cons, List.map_cons, List.sum_cons, List.sum_cons, ih, h2.1, h2.2.1, h2.2.2]
  | pd js g =>
    show pdForce g (dofsOf w js) x u = pdForce g (dofsOf w0 js) x u
    rw [h.dofs]

lemma pos_moved {dt : ℝ} {v x : Fin n → ℝ} {l l' : MLink} (h : Moved dt v l l') (hx : HasPos x l) : HasPos (x + dt • v) l' := by
  obtain ⟨att, start, b0, b1⟩ := l
  obtain ⟨att', start', b0', b1'⟩ := l'
  obtain ⟨h1, h2, h3, h4⟩ := h
  dsimp only at h1 h2 h3 h4
  subst h1 h2 h3
  cases h4 with
  | lin k q dq hb =>
    obtain ⟨hb', hq⟩ := hx
    dsimp only at hb' hq
    refine ⟨hb, ?_⟩
    dsimp only
    rw [hq]
    rfl
  | free => trivial
  | fixed => trivial

/-- one step: an implicit Euler step of the equations of motion -/
lemma euler_step {up : Vec3} {m : Body → ℝ} {c : Body → Vec3} {I : Body → Mat3} {cs good : List LibCtrl} {dt : ℝ} {w s w' : MWorld n Unit} (hw : Sound up m c I good w)
    (hg : ∀ x ∈ cs, TameCtrl w x) (h : WStep (libPlug n up cs) dt w s w') {q : Fin n → ℝ} (hq : ∀ l ∈ w.tree.links, HasPos q l) :
    Sound up m c I good w' ∧ Unturned w w' ∧ (∀ l ∈ w'.tree.links, HasPos (q + dt • w'.gvel) l) ∧
    worldMass (worldDynamic n (linksOf w)) *ᵥ w'.gvel = worldMass (worldDynamic n (linksOf w)) *ᵥ w.gvel +
      dt • ((cs.map (forceOf up m w (q + dt • w'.gvel) w'.gvel)).sum - worldViscosity (worldDynamic n (linksOf w)) *ᵥ w'.gvel) := by
  obtain ⟨hs, hslid, a, ha, hd, vals, hv, he⟩ := step_facts hw h
  refine ⟨hs, ⟨?_, ?_⟩, ?_, ?_⟩
  · exact hslid.imp fun x y hxy => ⟨hxy.1, hxy.2.2.2.jac, hxy.2.2.2.rot⟩
  · intro js
    rw [dofsOf_read, dofsOf_read]
    exact (moved_lists (read_moved h.tree.links.1 js)).1
  · intro l hl
    obtain ⟨l0, hl0, hm⟩ := h.tree.mem hl
    exact pos_moved hm (hq l0 hl0)
  · have key : ∀ {l : List LibCtrl} {vals : List (CtrlVal n)}, (∀ x ∈ l, TameCtrl w x) → List.Forall₂ (fun x v => LibCtrl.update up a dt x = .ok v) l vals →
        (vals.map (·.gforce)).sum + (vals.map (·.impedance)).sum *ᵥ w'.gvel = (l.map (forceOf up m w (q + dt • w'.gvel) w'.gvel)).sum := by
      intro l vals hl hv
      induction hv with
      | nil => simp
      | @cons x val l vals h1 _ ih =>
        have ih := ih fun y hy => hl y (by simp [hy])
        have h2 : val.gforce + val.impedance *ᵥ w'.gvel = forceOf up m w (q + dt • w'.gvel) w'.gvel x := by
          cases x with
          | weight γ =>
            have h3 : weightUpdateE γ up a.dyn = .ok val := h1
            rw [hd] at h3
            exact weight_force (fun x hx => (forall₂_left hslid x hx).choose_spec.2.2.1) (fun x hx => (hw.bodies _ (mem_dyn hx)).1)
              (fun x hx => (hw.bodies _ (mem_dyn hx)).2.1) h3 _
          | pd js g =>
            have h3 : pdUpdate n g (pdRead a js) dt = .ok val := h1
            have e : pdRead a js = pdRead w js := by unfold pdRead; rw [ha]
            rw [e] at h3
            have ht := hl (.pd js g) (by simp)
            exact pd_force hq h3 (by rw [dofsOf_read]; exact pdDofMap_nodup hw.num ht.1) _
        simp only [List.map_cons, List.sum_cons]
        rw [← h2, ← ih, Matrix.add_mulVec]
        abel
    rw [key hg hv, Matrix.mulVec_sub] at he
    rw [smul_sub, ← he]
    abel

/-! ### the forces are linear -/

/-- the dofs `ds` of a vector -/
def pick (n : ℕ) (ds : List ℕ) : Matrix (Fin ds.length) (Fin n) ℝ := Matrix.of fun i e => if ds[i] = e.val then 1 else 0

lemma pick_mul (ds : List ℕ) (x : Fin n → ℝ) (i : Fin ds.length) : (pick n ds *ᵥ x) i = entry x ds[i] := by
  simp only [pick, Matrix.mulVec, dotProduct, Matrix.of_apply, ite_mul, one_mul, zero_mul, entry]
  split_ifs with h
  · rw [Finset.sum_eq_single ⟨ds[i], h⟩]
    · simp
    · intro e _ he
      rw [if_neg]
      intro h1
      exact he (Fin.ext h1.symm)
    · intro h0
      exact absurd (Finset.mem_univ _) h0
  · refine Finset.sum_eq_zero fun e _ => if_neg ?_
    intro h1
    exact h (h1 ▸ e.isLt)

/-- gains as a matrix -/
def gains (k : ℕ) (K : ℕ → ℕ → ℝ) : Matrix (Fin k) (Fin k) ℝ := Matrix.of fun i j => K i j

lemma pd_form (g : PDGains) (ds : List ℕ) (x u : Fin n → ℝ) : pdForce g ds x u =
    (pick n ds)ᵀ *ᵥ (gains ds.length g.kp *ᵥ (fun j => g.gposDes j) + gains ds.length g.kd *ᵥ fun j => g.gvelDes j) -
      ((pick n ds)ᵀ * gains ds.length g.kp * pick n ds) *ᵥ x - ((pick n ds)ᵀ * gains ds.length g.kd * pick n ds) *ᵥ u := by
  have e1 : pdForce g ds x u = (pick n ds)ᵀ *ᵥ fun i => ∑ j : Fin ds.length, (g.kp i j * (g.gposDes j - entry x ds[j]) + g.kd i j * (g.gvelDes j - entry u ds[j])) := by
    funext e
    simp only [pdForce, Matrix.mulVec, dotProduct, Matrix.transpose_apply, pick, Matrix.of_apply, ite_mul, one_mul, zero_mul]
  have e2 : (fun i : Fin ds.length => ∑ j : Fin ds.length, (g.kp i j * (g.gposDes j - entry x ds[j]) + g.kd i j * (g.gvelDes j - entry u ds[j]))) =
      gains ds.length g.kp *ᵥ ((fun j : Fin ds.length => g.gposDes j) - pick n ds *ᵥ x) + gains ds.length g.kd *ᵥ ((fun j : Fin ds.length => g.gvelDes j) - pick n ds *ᵥ u) := by
    funext i
    rw [Finset.sum_add_distrib]
    refine congrArg₂ (· + ·) (Finset.sum_congr rfl fun j _ => ?_) (Finset.sum_congr rfl fun j _ => ?_)
    · rw [Pi.sub_apply, pick_mul]
      rfl
    · rw [Pi.sub_apply, pick_mul]
      rfl
  rw [e1, e2]
  simp only [Matrix.mulVec_sub, Matrix.mulVec_add, ← Matrix.mulVec_mulVec]
  abel

lemma pick_dot (ds : List ℕ) (K : Matrix (Fin ds.length) (Fin ds.length) ℝ) (x : Fin n → ℝ) :
    x ⬝ᵥ ((pick n ds)ᵀ * K * pick n ds) *ᵥ x = (pick n ds *ᵥ x) ⬝ᵥ K *ᵥ (pick n ds *ᵥ x) := by
  rw [← Matrix.mulVec_mulVec, ← Matrix.mulVec_mulVec, dot_transpose_mul]

lemma gains_dot {k : ℕ} {K : ℕ → ℕ → ℝ} (h : ∀ x : ℕ → ℝ, 0 ≤ ∑ i ∈ Finset.range k, ∑ j ∈ Finset.range k, x i * K i j * x j) (y : Fin k → ℝ) :
    0 ≤ y ⬝ᵥ gains k K *ᵥ y := by
  have := h (wide y)
  simp only [Finset.sum_range] at this
  have e : ∀ i : Fin k, wide y i.val = y i := fun i => congrFun (wide_val y) i
  simp only [e] at this
  refine this.trans_eq (Finset.sum_congr rfl fun i _ => ?_)
  simp only [Matrix.mulVec, dotProduct, Finset.mul_sum, gains, Matrix.of_apply]
  exact Finset.sum_congr rfl fun j _ => by ring

lemma forces_form (up : Vec3) (m : Body → ℝ) {σ : Type} (w : MWorld n σ) : ∀ cs : List LibCtrl, (∀ x ∈ cs, TameCtrl w x) →
    ∃ (b : Fin n → ℝ) (K D : Matrix (Fin n) (Fin n) ℝ), SymPSD K ∧ (∀ y, 0 ≤ y ⬝ᵥ D *ᵥ y) ∧ ∀ x u, (cs.map (forceOf up m w x u)).sum = b - K *ᵥ x - D *ᵥ u
  | [], _ => ⟨0, 0, 0, ⟨by simp, fun y => by simp⟩, fun y => by simp, fun x u => by simp⟩
  | c :: cs, h => by
    obtain ⟨b, K, D, hK, hD, hf⟩ := forces_form up m w cs fun x hx => h x (by simp [hx])
    have hc : ∃ (b : Fin n → ℝ) (K D : Matrix (Fin n) (Fin n) ℝ), SymPSD K ∧ (∀ y, 0 ≤ y ⬝ᵥ D *ᵥ y) ∧ ∀ x u, forceOf up m w x u c = b - K *ᵥ x - D *ᵥ u := by
      have hc := h c (by simp)
      cases c with
      | weight γ => exact ⟨weightForce γ up m (worldDynamic n (linksOf w)), 0, 0, ⟨by simp, fun y => by simp⟩, fun y => by simp, fun x u => by simp [forceOf]⟩
      | pd js g =>
        refine ⟨_, _, _, ⟨?_, fun y => ?_⟩, fun y => ?_, fun x u => pd_form g (dofsOf w js) x u⟩
        · rw [Matrix.transpose_mul, Matrix.transpose_mul, Matrix.transpose_transpose, ← Matrix.mul_assoc]
          congr 2
          ext i j
          exact hc.2.symm _ j.isLt _ i.isLt
        · rw [pick_dot]
          exact gains_dot hc.2.kp _
        · rw [pick_dot]
          exact gains_dot hc.2.kd _
    obtain ⟨b', K', D', hK', hD', hf'⟩ := hc
    refine ⟨b' + b, K' + K, D' + D, ⟨by rw [Matrix.transpose_add, hK'.1, hK.1], fun y => ?_⟩, fun y => ?_, fun x u => ?_⟩
    · rw [Matrix.add_mulVec, dotProduct_add]
      exact add_nonneg (hK'.2 y) (hK.2 y)
    · rw [Matrix.add_mulVec, dotProduct_add]
      exact add_nonneg (hD' y) (hD y)
    · rw [List.map_cons, List.sum_cons, hf, hf', Matrix.add_mulVec, Matrix.add_mulVec]
      abel

/-! ### runs -/

lemma tame_unturned {σ : Type} {w0 w : MWorld n σ} (h : ∀ js, dofsOf w js = dofsOf w0 js) {c : LibCtrl} (hc : TameCtrl w0 c) : TameCtrl w c := by
  cases c with
  | weight γ => trivial
  | pd js g => exact ⟨hc.1, by rw [h]; exact hc.2⟩

lemma Unturned.trans {σ : Type} {w0 w w' : MWorld n σ} (h : Unturned w0 w) (h' : Unturned w w') : Unturned w0 w' :=
  ⟨unturned_trans (fun _ _ _ h1 h2 => ⟨h1.1.trans h2.1, h2.2.1.trans h1.2.1, h2.2.2.trans h1.2.2⟩) h.dyn h'.dyn, fun js => (h'.dofs js).trans (h.dofs js)⟩

lemma close_of {σ : Type} {w : MWorld n σ} {q x u : Fin n → ℝ} {ε : ℝ} (hq : ∀ l ∈ w.tree.links, HasPos q l) (hv : ∀ l ∈ w.tree.links, HasVel w.gvel l)
    (h1 : ‖q - x‖ ≤ ε) (h2 : ‖w.gvel - u‖ ≤ ε) : CloseTo x u ε w := by
  have a1 : ∀ e, |q e - x e| ≤ ε := fun e => (norm_le_pi_norm (q - x) e).trans h1
  have a2 : ∀ e, |w.gvel e - u e| ≤ ε := fun e => (norm_le_pi_norm (w.gvel - u) e).trans h2
  refine ⟨a2, fun l hl => ?_⟩
  have b1 := hq l hl
  have b2 := hv l hl
  obtain ⟨att, start, p0, p1⟩ := l
  cases att with
  | lin k p dp =>
    obtain ⟨hb, e1⟩ := b1
    obtain ⟨hb', e2⟩ := b2
    dsimp only at hb e1 hb' e2 ⊢
    refine ⟨hb, fun i => ?_⟩
    rw [e1, e2]
    exact ⟨a1 _, a2 _⟩
  | free => trivial
  | fixed => trivial

/-- every state of a run is near the exact motion -/
lemma evolves_near {up : Vec3} {m : Body → ℝ} {c : Body → Vec3} {I : Body → Mat3} {cs good : List LibCtrl} {w0 : MWorld n Unit} {t0 T h C : ℝ} {x u : ℝ → Fin n → ℝ}
    (hg : ∀ y ∈ cs, TameCtrl w0 y) {Near : ℝ → (Fin n → ℝ) → (Fin n → ℝ) → Prop}
    (hstep : ∀ t t' q v q' v', t ∈ Set.Icc t0 T → t' ∈ Set.Icc t0 T → t ≤ t' → t' - t ≤ h → Near t q v → q' = q + (t' - t) • v' →
        worldMass (worldDynamic n (linksOf w0)) *ᵥ v' = worldMass (worldDynamic n (linksOf w0)) *ᵥ v +
          (t' - t) • ((cs.map (forceOf up m w0 q' v')).sum - worldViscosity (worldDynamic n (linksOf w0)) *ᵥ v') → Near t' q' v')
    (hclose : ∀ t q v, t ∈ Set.Icc t0 T → Near t q v → ‖q - x t‖ ≤ C ∧ ‖v - u t‖ ≤ C)
    {tl : List ℝ} {w w' : MWorld n Unit} {seen : List (ℝ × ℝ × MWorld n Unit)} (he : Evolves (libPlug n up cs) tl w seen w') :
    ∀ {q : Fin n → ℝ} {t t' : ℝ}, Sound up m c I good w → Unturned w0 w → (∀ l ∈ w.tree.links, HasPos q l) → (∀ l ∈ w.tree.links, HasVel w.gvel l) → tl.head? = some t →
      tl.getLast? = some t' → (∀ τ ∈ tl, τ ∈ Set.Icc t0 T) → tl.IsChain (fun a b => b - a ≤ h) → Near t q w.gvel →
      CloseTo (x t') (u t') C w' ∧ ∀ s ∈ seen, CloseTo (x s.1) (u s.1) C s.2.2 := by
  induction he with
  | done τ w =>
    intro q t t' _ _ hq hv h1 h2 hT _ hn
    obtain rfl : τ = t := by simpa using h1
    obtain rfl : τ = t' := by simpa using h2
    obtain ⟨c1, c2⟩ := hclose _ _ _ (hT τ (by simp)) hn
    exact ⟨close_of hq hv c1 c2, by simp⟩
  | @step τ τ' ts w s w1 w' seen hs hrest ih =>
    intro q t t' hw hsame hq hv h1 h2 hT hch hn
    obtain rfl : τ = t := by simpa using h1
    obtain ⟨g1, g2, g3, g4⟩ := euler_step hw (fun y hy => tame_unturned hsame.dofs (hg y hy)) hs hq
    have hf : ((cs.map (forceOf up m w (q + (τ' - τ) • w1.gvel) w1.gvel)).sum : Fin n → ℝ) = (cs.map (forceOf up m w0 (q + (τ' - τ) • w1.gvel) w1.gvel)).sum := by
      congr 1
      exact List.map_congr_left fun y _ => hsame.force up m _ _ y
    rw [(unturned_mass hsame.dyn).1, (unturned_mass hsame.dyn).2, hf] at g4
    obtain ⟨hd, hch'⟩ := List.isChain_cons_cons.mp hch
    have hn' := hstep τ τ' q w.gvel _ w1.gvel (hT τ (by simp)) (hT τ' (by simp)) (by linarith [hs.pos]) hd hn rfl g4
    obtain ⟨k1, k2⟩ := ih g1 (hsame.trans g2) g3 hs.vel rfl (by rw [← h2, List.getLast?_cons_cons]) (fun y hy => hT y (by simp at hy ⊢; tauto)) hch' hn'
    refine ⟨k1, ?_⟩
    intro s' hs'
    rcases List.mem_cons.mp hs' with rfl | hs'
    · obtain ⟨c1, c2⟩ := hclose _ _ _ (hT τ (by simp)) hn
      obtain ⟨vals, F, hseen, -⟩ := hs.motion
      have h3 := close_of hq hv c1 c2
      unfold CloseTo at h3 ⊢
      dsimp only
      rw [hseen.tree, hseen.gvel]
      exact h3
    · exact k2 s' hs'

lemma dofs_started {w w0 : MWorld n Unit} (h : Started w w0) (js : List ℕ) : (dofsOf w0 js).length = (dofsOf w js).length := by
  have h1 := gposOf_started h js
  have e : ∀ v : MWorld n Unit, (dofsOf v js).length = (gposOf v js).length := by
    intro v
    rw [dofsOf_read, gposOf_read]
    have := pd_lengths (pdRead v js)
    omega
  rw [e, e, h1]

/-- C130.  Let `x`, `u` be the exact motion of a sliding mechanism from `t0` to `T` (the solution of its differential equation of motion, with its weight, its
viscosity and its proportional-derivative controllers).  There is a number `C` such that every simulation from `t0`, at most until `T`, with steps of at most
`h`, regular or not, is at most `C h` away from the exact motion: positions and velocities, at the end and each time that observers look. -/
theorem C130_converges {up : Vec3} {m : Body → ℝ} {c : Body → Vec3} {cs : List LibCtrl} {w w0 : MWorld n Unit} {t0 T : ℝ} {x u a : ℝ → Fin n → ℝ}
    (hw : SlidingWorld m c w) (hg : ∀ y ∈ cs, TameCtrl w y) (h0 : Mech.init w = .ok w0) (hM : SymPD (worldMass (worldDynamic n (linksOf w0))))
    (hx : ExactMotion up m cs w0 t0 T x u a) :
    ∃ C, 0 ≤ C ∧ ∀ (h : ℝ) (tl : List ℝ) (k : ℕ) (tr : List (Ev (MWorld n Unit))) (w' : MWorld n Unit) (t' : ℝ), 0 ≤ h → tl.head? = some t0 → (∀ t ∈ tl, t ≤ T) →
      tl.IsChain (fun t1 t2 => t2 - t1 ≤ h) → simulate (engine (libPlug n up cs)) w tl (.list k) = (tr, .ok (w', t')) →
      tl.getLast? = some t' ∧ CloseTo (x t') (u t') (C * h) w' ∧
      ∃ seen, tr = runCalls k t0 w0 tl seen ∧ ∀ s ∈ seen, CloseTo (x s.1) (u s.1) (C * h) s.2.2 := by
  obtain ⟨w0', h1, hst⟩ := init_started hw.dofs
  obtain rfl : w0 = w0' := Except.ok.inj (h0.symm.trans h1)
  have hg0 : ∀ y ∈ cs, TameCtrl w0 y := by
    intro y hy
    have := hg y hy
    cases y with
    | weight γ => trivial
    | pd js g => exact ⟨this.1, by rw [dofs_started hst]; exact this.2⟩
  obtain ⟨I, hs⟩ := sound_started (up := up) (cs := []) hw (by simp) hst
  obtain ⟨b, K, D, hK, hD, hf⟩ := forces_form up m w0 cs hg0
  have hB := C27_viscosity (worldDynamic n (linksOf w0)) fun x hx => (hs.bodies _ (mem_dyn hx)).2.2.2
  set M := worldMass (worldDynamic n (linksOf w0)) with hMdef
  set B := worldViscosity (worldDynamic n (linksOf w0)) with hBdef
  have hlaw : ∀ t ∈ Set.Icc t0 T, M *ᵥ a t = b - K *ᵥ x t - (D + B) *ᵥ u t := by
    intro t ht
    rw [Matrix.add_mulVec, ← sub_sub, ← hf, ← hx.law t ht, add_sub_cancel_right]
  obtain ⟨C, hC, key⟩ := Euler.near hK hM (fun y => by rw [Matrix.add_mulVec, dotProduct_add]; exact add_nonneg (hD y) (hB.2 y)) hx.dx hx.du hlaw
  refine ⟨C, hC, ?_⟩
  intro h tl k tr w' t' hh hhead hT hch hrun
  obtain ⟨t0', rest, w0', seen, e1, e2, e3, e4, e5, e6⟩ := (C45_run ..).mp hrun
  obtain rfl : w0 = w0' := Except.ok.inj (h0.symm.trans e3)
  obtain rfl : t0 = t0' := by rw [e1] at hhead; simpa using hhead.symm
  obtain ⟨Near, n1, n2, n3⟩ := key h hh
  have hev := steps_evolves e4 hst.vel
  have hIcc : ∀ τ ∈ tl, τ ∈ Set.Icc t0 T := by
    intro τ hτ
    refine ⟨?_, hT τ hτ⟩
    rw [e1] at hτ e2
    rcases List.mem_cons.mp hτ with rfl | hτ
    · exact le_rfl
    · exact ((List.pairwise_cons.mp e2).1 τ hτ).le
  rw [hx.vel] at n1
  obtain ⟨k1, k2⟩ := evolves_near (x := x) (u := u) (C := C * h) hg0 (Near := Near) (fun t t' q v q' v' ht ht' htt hth hnear eq1 eq2 =>
    n2 t t' q v q' v' ht ht' htt hth hnear eq1 (by rw [eq2, hf, Matrix.add_mulVec]; congr 2; abel)) n3 hev hs (unturned_refl w0) hx.pos hst.vel hhead e6 hIcc hch n1
  exact ⟨e6, k1, seen, e5, k2⟩

/-! ### there is an exact motion -/

/-- linear differential equations of the second order have solutions -/
lemma linear_motion (A E : Matrix (Fin n) (Fin n) ℝ) (β q v : Fin n → ℝ) (t0 : ℝ) : ∃ x u : ℝ → Fin n → ℝ, x t0 = q ∧ u t0 = v ∧
    (∀ t, HasDerivAt x (u t) t) ∧ ∀ t, HasDerivAt u (β - A *ᵥ x t - E *ᵥ u t) t := by
  let L0 : ((Fin n → ℝ) × (Fin n → ℝ) × ℝ) →ₗ[ℝ] ((Fin n → ℝ) × (Fin n → ℝ) × ℝ) :=
    { toFun := fun y => (y.2.1, y.2.2 • β - A *ᵥ y.1 - E *ᵥ y.2.1, 0)
      map_add' := fun y z => by
        simp only [Prod.fst_add, Prod.snd_add, Matrix.mulVec_add, add_smul, Prod.mk_add_mk, add_zero, Prod.mk.injEq, true_and, and_true]
        abel
      map_smul' := fun r y => by
        simp only [Prod.smul_fst, Prod.smul_snd, Matrix.mulVec_smul, RingHom.id_apply, Prod.smul_mk, smul_sub, smul_eq_mul, mul_smul, mul_zero] }
  let L : ((Fin n → ℝ) × (Fin n → ℝ) × ℝ) →L[ℝ] ((Fin n → ℝ) × (Fin n → ℝ) × ℝ) := LinearMap.toContinuousLinearMap L0
  let y : ℝ → (Fin n → ℝ) × (Fin n → ℝ) × ℝ := fun t => NormedSpace.exp ((t - t0) • L) (q, v, 1)
  have hy : ∀ t, HasDerivAt y (L (y t)) t := by
    intro t
    have h1 := hasDerivAt_exp_smul_const' (𝕂 := ℝ) L (t - t0)
    have h2 : HasDerivAt (fun t : ℝ => NormedSpace.exp ((t - t0) • L)) (L * NormedSpace.exp ((t - t0) • L)) t := by
      have h3 := h1.scomp t ((hasDerivAt_id t).sub_const t0)
      rw [one_smul] at h3
      exact h3
    exact h2.clm_apply (hasDerivAt_const t (q, v, (1 : ℝ))) |>.congr_deriv (by simp [y])
  have hL : ∀ z, L z = (z.2.1, z.2.2 • β - A *ᵥ z.1 - E *ᵥ z.2.1, 0) := fun z => rfl
  have hone : ∀ t, (y t).2.2 = 1 := by
    intro t
    have hd : ∀ t, HasDerivAt (fun t => (y t).2.2) 0 t := by
      intro t
      have h3 := (hy t).snd.snd
      rw [hL] at h3
      exact h3
    have hc := is_const_of_deriv_eq_zero (fun t => (hd t).differentiableAt) (fun t => (hd t).deriv) t t0
    rw [hc]
    simp [y]
  refine ⟨fun t => (y t).1, fun t => (y t).2.1, by simp [y], by simp [y], fun t => ?_, fun t => ?_⟩
  · have h3 := (hy t).fst
    rw [hL] at h3
    exact h3
  · have h3 := (hy t).snd.fst
    rw [hL, hone, one_smul] at h3
    exact h3

lemma pos_exists : ∀ (ls : List MLink) (a : ℕ), Numbered a ls → (∀ l ∈ ls, l.start + l.att.ndof ≤ n) → ∃ x : Fin n → ℝ, ∀ l ∈ ls, HasPos x l
  | [], _, _, _ => ⟨0, by simp⟩
  | l :: ls, a, h, hb => by
    obtain ⟨x, hx⟩ := pos_exists ls _ h.2 fun l hl => hb l (by simp [hl])
    have hb0 := hb l (by simp)
    have h0 := h.1
    obtain ⟨att, start, p0, p1⟩ := l
    dsimp only at h0 hb0
    cases att with
    | free H T =>
      refine ⟨x, fun l' hl' => ?_⟩
      rcases List.mem_cons.mp hl' with rfl | hl'
      · trivial
      · exact hx _ hl'
    | fixed =>
      refine ⟨x, fun l' hl' => ?_⟩
      rcases List.mem_cons.mp hl' with rfl | hl'
      · trivial
      · exact hx _ hl'
    | lin k q dq =>
      have hb0 : start + k.ndof ≤ n := hb0
      refine ⟨fun e => if he : start ≤ e.val ∧ e.val < start + k.ndof then q ⟨e.val - start, by omega⟩ else x e, fun l' hl' => ?_⟩
      rcases List.mem_cons.mp hl' with rfl | hl'
      · refine ⟨hb0, ?_⟩
        funext i
        simp only [slice]
        rw [dif_pos ⟨by omega, by omega⟩]
        congr 1
        exact Fin.ext (by simp)
      · have h1 := hx _ hl'
        obtain ⟨i, hi, rfl⟩ := List.mem_iff_getElem.mp hl'
        have h2 := numbered_le h.2 hi
        generalize ls[i] = l' at h1 h2
        obtain ⟨att', start', p0', p1'⟩ := l'
        cases att' with
        | lin k' q' dq' =>
          obtain ⟨hb', e⟩ := h1
          refine ⟨hb', ?_⟩
          dsimp only at hb' e h2 ⊢
          rw [e]
          funext j
          simp only [slice]
          rw [dif_neg]
          change a + k.ndof ≤ start' at h2
          omega
        | free => trivial
        | fixed => trivial

/-- C130.  There is an exact motion, as long as wanted. -/
theorem C130_exists {up : Vec3} {m : Body → ℝ} {c : Body → Vec3} {cs : List LibCtrl} {w : MWorld n Unit} (hw : SlidingWorld m c w) (hg : ∀ y ∈ cs, TameCtrl w y) :
    ∃ w0, Mech.init w = .ok w0 ∧ (SymPD (worldMass (worldDynamic n (linksOf w0))) → ∀ t0 T, ∃ x u a, ExactMotion up m cs w0 t0 T x u a) := by
  obtain ⟨w0, h1, hst⟩ := init_started hw.dofs
  refine ⟨w0, h1, fun hM t0 T => ?_⟩
  have hg0 : ∀ y ∈ cs, TameCtrl w0 y := by
    intro y hy
    have := hg y hy
    cases y with
    | weight γ => trivial
    | pd js g => exact ⟨this.1, by rw [dofs_started hst]; exact this.2⟩
  obtain ⟨b, K, D, hK, hD, hf⟩ := forces_form up m w0 cs hg0
  set M := worldMass (worldDynamic n (linksOf w0)) with hMdef
  set B := worldViscosity (worldDynamic n (linksOf w0)) with hBdef
  have hb : ∀ l ∈ w0.tree.links, l.start + l.att.ndof ≤ n := by
    intro l hl
    have := hst.vel l hl
    obtain ⟨att, start, p0, p1⟩ := l
    cases att with
    | lin k q dq => exact this.choose
    | free H T => exact this.choose
    | fixed => exact this
  obtain ⟨q, hq⟩ := pos_exists _ _ hst.numbered hb
  obtain ⟨x, u, hx0, hu0, hx, hu⟩ := linear_motion (M⁻¹ * K) (M⁻¹ * (D + B)) (M⁻¹ *ᵥ b) q w0.gvel t0
  have hi : M * M⁻¹ = 1 := Matrix.mul_nonsing_inv _ (isUnit_iff_ne_zero.mpr (Euler.det_ne hM))
  refine ⟨x, u, fun t => M⁻¹ *ᵥ b - (M⁻¹ * K) *ᵥ x t - (M⁻¹ * (D + B)) *ᵥ u t, fun l hl => by rw [hx0]; exact hq l hl, hu0, fun t _ => hx t, fun t _ => hu t, fun t _ => ?_⟩
  rw [hf, Matrix.mulVec_sub, Matrix.mulVec_sub, Matrix.mulVec_mulVec, Matrix.mulVec_mulVec, Matrix.mulVec_mulVec, ← Matrix.mul_assoc, ← Matrix.mul_assoc, hi,
    Matrix.one_mul, Matrix.one_mul, Matrix.one_mulVec, Matrix.add_mulVec]
  abel

end
end Arboris
