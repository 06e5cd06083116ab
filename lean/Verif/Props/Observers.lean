import Verif.Model.Observers
import Verif.Props.ContactUpdate
import Verif.Props.Mass

/-!
# C63, C64, C65: `EnergyMonitor` and `CoMObserver`
-/

namespace Arboris
open Matrix Spec

/-! ### C63 -/

/-- `eig` answers with orthonormal eigenvectors on the central inertia of `M` -/
def Spec.EigOk (eig : Mat3 → Mat3) (M : Mat6) : Prop :=
  (eig (centralInertia M))ᵀ * eig (centralInertia M) = 1 ∧ ∃ d, IsEig (centralInertia M) (eig (centralInertia M)) d

lemma mapM_ok {α β : Type} {f : α → Except PyErr β} {g : α → β} {l : List α} (h : ∀ x ∈ l, f x = .ok (g x)) :
    l.mapM f = .ok (l.map g) := by
  induction l with
  | nil => rfl
  | cons a l ih =>
    rw [List.mapM_cons, h a List.mem_cons_self, ih fun x hx => h x (List.mem_cons_of_mem _ hx)]
    rfl

lemma principal_ok {eig : Mat3 → Mat3} {M : Mat6} {m : ℝ} {c : Vec3} {I : Mat3} (h : IsRigidMass M m c I) (hp : SymPD M)
    (he : EigOk eig M) : ∃ Q, IsRotation Q ∧ principalframe M (eig (centralInertia M)) = .ok (mkH Q c) := by
  obtain ⟨ho, d, hd⟩ := he
  obtain ⟨H, e, hr, hc, -⟩ := C15_principal h hp ho hd
  exact ⟨rot H, hr.rotation, by rw [e, ← hc, ← hr.eq_mkH]⟩

lemma mass33 {M : Mat6} {m : ℝ} {c : Vec3} {I : Mat3} (h : IsRigidMass M m c I) : M 3 3 = m := by
  rw [h.eq]; simp [blk]
lemma mass55 {M : Mat6} {m : ℝ} {c : Vec3} {I : Mat3} (h : IsRigidMass M m c I) : M 5 5 = m := by
  rw [h.eq]; simp [blk]

lemma energyInit_ok {eig : Mat3 → Mat3} {bodies : List Body} {m : Body → ℝ} {c : Body → Vec3} {I : Body → Mat3}
    (hM : ∀ b ∈ bodies, IsRigidMass b.mass (m b) (c b) (I b)) (hp : ∀ b ∈ bodies, SymPD b.mass)
    (he : ∀ b ∈ bodies, EigOk eig b.mass) :
    energyInit eig bodies = .ok (bodies.map fun b => ![c b 0, c b 1, c b 2, 1]) := by
  apply mapM_ok
  intro b hb
  obtain ⟨Q, -, e⟩ := principal_ok (hM b hb) (hp b hb) (he b hb)
  rw [e]
  refine congrArg Except.ok ?_
  ext i; fin_cases i <;> simp [mkH]

lemma energy_potential {n : ℕ} (up : Vec3) (c : Body → Vec3) (m : Body → ℝ) (bs : List (Body × BodyDyn n))
    (hr : ∀ x ∈ bs, IsRigid x.2.pose) (hm : ∀ x ∈ bs, x.1.mass 3 3 = m x.1) (a : ℝ) :
    (bs.zip (bs.map fun x => (![c x.1 0, c x.1 1, c x.1 2, 1] : Fin 4 → ℝ))).foldl (fun acc x =>
      acc + x.1.1.mass 3 3 * ((![(x.1.2.pose *ᵥ x.2) 0, (x.1.2.pose *ᵥ x.2) 1, (x.1.2.pose *ᵥ x.2) 2] : Vec3) ⬝ᵥ up)) a =
    a + (bs.map fun x => massHeight up x.2.pose (m x.1) (c x.1)).sum := by
  induction bs generalizing a with
  | nil => simp
  | cons x l ih =>
    simp only [List.map_cons, List.zip_cons_cons, List.foldl_cons, List.sum_cons]
    rw [ih (fun y hy => hr y (List.mem_cons_of_mem _ hy)) (fun y hy => hm y (List.mem_cons_of_mem _ hy)),
      hm x List.mem_cons_self, ← add_assoc]
    congr 2
    obtain ⟨R, p, hR, e⟩ := isRigid_iff.mp (hr x List.mem_cons_self)
    rw [e]
    simp [massHeight, pointOf, mkH, Matrix.mulVec, dotProduct, Fin.sum_univ_three, Fin.sum_univ_four]
    left; ring

/-- C63: for every tree of valid joints whose bodies have rigid-body, positive definite mass matrices, `init` raises
nothing and each `update` appends to the four lists: the current time, the kinetic energy `Σ ½ TᵀMT` of the bodies,
`9.81 Σ m · height of the centre of mass`, and their sum. -/
theorem C63_energies {n : ℕ} {eig : Mat3 → Mat3} (F : Forest Link Body) (ν : Fin n → ℝ) (up : Vec3) (m : Body → ℝ)
    (c : Body → Vec3) (I : Body → Mat3) (hv : ∀ l ∈ F.links, ValidLink l) (hc : ∀ l ∈ F.links, Consistent ν l)
    (hM : ∀ x ∈ F.paths, IsRigidMass x.1.mass (m x.1) (c x.1) (I x.1)) (hp : ∀ x ∈ F.paths, SymPD x.1.mass)
    (he : ∀ x ∈ F.paths, EigOk eig x.1.mass) (time : ℝ) (log : EnergyLog) :
    ∃ com, energyInit eig ((worldDynamic n F).map Prod.fst) = .ok com ∧
      let Ec := ((worldDynamic n F).map fun x => (x.2.twist ⬝ᵥ x.1.mass *ᵥ x.2.twist) / 2).sum
      let Ep := 9.81 * ((worldDynamic n F).map fun x => massHeight up x.2.pose (m x.1) (c x.1)).sum
      energyUpdate log com time up ν (worldMass (worldDynamic n F)) (worldDynamic n F) =
        ⟨log.time ++ [time], log.kinetic ++ [Ec], log.potential ++ [Ep], log.mechanical ++ [Ec + Ep]⟩ := by
  have hmem : ∀ x ∈ worldDynamic n F, ∃ y ∈ F.paths, x = (y.1, y.2.foldl dynStep (groundDyn n)) := by
    intro x hx
    rw [worldDynamic, updateDynamic_eq] at hx
    obtain ⟨y, hy, rfl⟩ := List.mem_map.mp hx
    exact ⟨y, hy, rfl⟩
  have hM' : ∀ x ∈ worldDynamic n F, IsRigidMass x.1.mass (m x.1) (c x.1) (I x.1) ∧ SymPD x.1.mass ∧ EigOk eig x.1.mass ∧
      IsRigid x.2.pose := by
    intro x hx
    obtain ⟨y, hy, rfl⟩ := hmem x hx
    exact ⟨hM y hy, hp y hy, he y hy, isRigid_foldl _ _ isRigid_one fun l hl => hv l (mem_links_of_mem_paths hy hl)⟩
  have hen := C27_energy ν F hc
  generalize worldDynamic n F = bs at *
  refine ⟨_, energyInit_ok (m := m) (c := c) (I := I) ?_ ?_ ?_, ?_⟩
  · intro b hb; obtain ⟨x, hx, rfl⟩ := List.mem_map.mp hb; exact (hM' x hx).1
  · intro b hb; obtain ⟨x, hx, rfl⟩ := List.mem_map.mp hb; exact (hM' x hx).2.1
  · intro b hb; obtain ⟨x, hx, rfl⟩ := List.mem_map.mp hb; exact (hM' x hx).2.2.1
  · have h1 := energy_potential up c m bs (fun x hx => (hM' x hx).2.2.2) (fun x hx => mass33 (hM' x hx).1) 0
    have e1 : (bs.map Prod.fst).map (fun b => (![c b 0, c b 1, c b 2, 1] : Fin 4 → ℝ)) =
        bs.map fun x => ![c x.1 0, c x.1 1, c x.1 2, 1] := by rw [List.map_map]; rfl
    have e2 : (bs.map fun x => (x.2.twist ⬝ᵥ x.1.mass *ᵥ x.2.twist) / 2).sum =
        (bs.map fun x => x.2.twist ⬝ᵥ x.1.mass *ᵥ x.2.twist).sum / 2 := by
      rw [div_eq_mul_inv, ← List.sum_map_mul_right]; rfl
    simp only [energyUpdate, e1, h1, hen, e2, zero_add]
    rw [mul_comm (9.81 : ℝ)]

/-- C63: a body with a null mass matrix (as created by `Body()`) makes `init` fail. -/
theorem C63_massless {eig : Mat3 → Mat3} (bodies : List Body) (h : ∃ b ∈ bodies, b.mass = 0) :
    energyInit eig bodies = .error .assertion := by
  have hz : ¬ ismassmatrix 0 := by
    intro h
    have := h.2.2 0 ⟨Pi.single 0 1, by intro e; simpa using congrFun e 0, by rw [Matrix.zero_mulVec, zero_smul]⟩
    simp at this
  unfold energyInit
  induction bodies with
  | nil => obtain ⟨b, hb, -⟩ := h; cases hb
  | cons a l ih =>
    rw [List.mapM_cons]
    by_cases ha : ismassmatrix a.mass
    · obtain ⟨b, hb, e⟩ := h
      rcases List.mem_cons.mp hb with rfl | hb
      · exact absurd (e ▸ ha) hz
      · rw [ih ⟨b, hb, e⟩]; simp only [principalframe, if_pos ha]; rfl
    · simp only [principalframe, if_neg ha]; rfl

/-- C63: the potential energy goes with the weight of the default `WeightController` (gravity -9.81): its derivative along
any motion is minus the power of that controller. -/
theorem C63_weight {n : ℕ} (up : Vec3) (F : Forest LinkT Body) (t : ℝ) (ν : Fin n → ℝ) (m : Body → ℝ)
    (c : Body → Vec3) (I : Body → Mat3) (hv : ∀ l ∈ F.links, ValidLink (l.at t)) (hm : ∀ l ∈ F.links, l.Moving t)
    (hc : ∀ l ∈ F.links, Consistent ν (l.at t)) (hM : ∀ x ∈ F.paths, IsRigidMass x.1.mass (m x.1) (c x.1) (I x.1))
    (h0 : ∀ x ∈ F.paths, 0 ≤ m x.1) :
    ∃ out, weightUpdateE (-9.81) up (worldDynamic n (treeAt F t)) = .ok out ∧
      HasDerivAt (fun s => 9.81 * ((worldDynamic n (treeAt F s)).map fun x => massHeight up x.2.pose (m x.1) (c x.1)).sum)
        (-(ν ⬝ᵥ out.gforce)) t := by
  obtain ⟨out, e, -, h⟩ := C35_power (-9.81) up F t ν m c I hv hm hc hM h0
  refine ⟨out, e, ?_⟩
  have h1 := h.neg
  refine h1.congr_of_eventuallyEq (Filter.Eventually.of_forall fun s => ?_)
  simp only [Pi.neg_apply]; ring

/-! ### C64 -/

/-- centre of mass of a list of (mass, position) -/
noncomputable def Spec.centreOfMass (l : List (ℝ × Vec3)) : Vec3 :=
  (l.map Prod.fst).sum⁻¹ • (l.map fun x => x.1 • x.2).sum

/-- jacobian of the point `c` of a body, in ground axes -/
noncomputable def comAd (R : Mat3) (c : Vec3) : Mat6 := blk R 0 (-(R * skew c)) R

variable {n : ℕ}

noncomputable def comJ (d : BodyDyn n) (c : Vec3) : Matrix (Fin 3) (Fin n) ℝ := lower3 (comAd (rot d.pose) c * d.jac)
noncomputable def comdJ (d : BodyDyn n) (c : Vec3) : Matrix (Fin 3) (Fin n) ℝ :=
  lower3 (comAd (rot d.pose) c * d.djac + comAd (rot d.pose) c * adjacency (tw (ang d.twist) 0) * d.jac)

lemma comStep_ok {acc : ComOut n} {d : BodyDyn n} (hd : IsRigid d.pose) {Q : Mat3} (hQ : IsRotation Q) (c : Vec3) (m : ℝ)
    (f : Bool) : comStep f acc d (mkH Q c) m = .ok ⟨acc.position + m • toGround d.pose c,
      if f then acc.jac + m • comJ d c else acc.jac, if f then acc.djac + m • comdJ d c else acc.djac⟩ := by
  obtain ⟨R, p, hR, e⟩ := isRigid_iff.mp hd
  have e1 : pos (d.pose * mkH Q c) = toGround d.pose c := by
    rw [e, mkH_mul, pos_mkH, toGround_mkH]
  have e2 : mkH Q c * mkH (rot (d.pose * mkH Q c))ᵀ 0 = mkH Rᵀ c := by
    rw [e, mkH_mul (R := R), rot_mkH, mkH_mul, Matrix.transpose_mul, ← Matrix.mul_assoc, hQ.1]; simp
  have e3 : iadjoint (mkH Rᵀ c) = .ok (comAd R c) := by
    rw [iadjoint_ok (isRigid_mkH hR.transpose)]
    refine congrArg Except.ok ?_
    simp only [iadjointBody, invBody, rot_mkH, pos_mkH, adjointBody_mkH, Matrix.transpose_transpose, comAd]
    rw [← Matrix.mulVec_neg, hR.skew_mul]
    congr 1
    ext i j; fin_cases i <;> fin_cases j <;> simp [skew, Matrix.mul_apply, Fin.sum_univ_three] <;> ring
  cases f
  · simp only [comStep, e1, Bool.false_eq_true, if_false]; rfl
  · simp only [comStep, e1, e2, e3, if_true, bind, Except.bind, comJ, comdJ, dAdjoint]
    rw [e, rot_mkH]; rfl

open Classical in
lemma comInit_ok {β : Type} {eig : Mat3 → Mat3} {us : List (Body × β)} {m : Body → ℝ} {c : Body → Vec3} {I : Body → Mat3}
    (hM : ∀ x ∈ us, IsRigidMass x.1.mass (m x.1) (c x.1) (I x.1)) (hp : ∀ x ∈ us, 0 < m x.1 → SymPD x.1.mass)
    (he : ∀ x ∈ us, 0 < m x.1 → EigOk eig x.1.mass) :
    ∃ Q : Body → Mat3, (∀ x ∈ us, 0 < m x.1 → IsRotation (Q x.1)) ∧
      comInit eig us = .ok ((us.filter fun x => 0 < m x.1).map fun x => (x.2, mkH (Q x.1) (c x.1), m x.1)) := by
  have hQ : ∃ Q : Body → Mat3, ∀ x ∈ us, 0 < m x.1 → IsRotation (Q x.1) ∧
      principalframe x.1.mass (eig (centralInertia x.1.mass)) = .ok (mkH (Q x.1) (c x.1)) := by
    have h : ∀ b : Body, ∃ Q, (∃ β, (b, β) ∈ us) → 0 < m b → IsRotation Q ∧
        principalframe b.mass (eig (centralInertia b.mass)) = .ok (mkH Q (c b)) := by
      intro b
      by_cases hb : (∃ β, (b, β) ∈ us) ∧ 0 < m b
      · obtain ⟨⟨y, hy⟩, hm⟩ := hb
        obtain ⟨Q, h1, h2⟩ := principal_ok (hM _ hy) (hp _ hy hm) (he _ hy hm)
        exact ⟨Q, fun _ _ => ⟨h1, h2⟩⟩
      · exact ⟨1, fun h1 h2 => absurd ⟨h1, h2⟩ hb⟩
    choose Q hQ using h
    exact ⟨Q, fun x hx hm => hQ x.1 ⟨x.2, hx⟩ hm⟩
  obtain ⟨Q, hQ⟩ := hQ
  refine ⟨Q, fun x hx hm => (hQ x hx hm).1, ?_⟩
  unfold comInit
  have e : us.filter (fun b => decide (0 < b.1.mass 5 5)) = us.filter fun x => decide (0 < m x.1) := by
    apply List.filter_congr
    intro x hx
    rw [mass55 (hM x hx)]
  rw [e]
  apply mapM_ok
  intro x hx
  obtain ⟨hx, hm⟩ := List.mem_filter.mp hx
  have hm : 0 < m x.1 := by simpa using hm
  rw [(hQ x hx hm).2, mass55 (hM x hx)]
  rfl

lemma comFold_ok {β : Type} (dyn : β → BodyDyn n) (f : Bool) (l : List (Body × β)) (Q : Body → Mat3) (c : Body → Vec3)
    (m : Body → ℝ) (hQ : ∀ x ∈ l, IsRotation (Q x.1)) (hd : ∀ x ∈ l, IsRigid (dyn x.2).pose) (acc : ComOut n) :
    (l.map fun x => (x.2, mkH (Q x.1) (c x.1), m x.1)).foldlM (fun acc x => comStep f acc (dyn x.1) x.2.1 x.2.2) acc =
      .ok ⟨acc.position + (l.map fun x => m x.1 • toGround (dyn x.2).pose (c x.1)).sum,
        if f then acc.jac + (l.map fun x => m x.1 • comJ (dyn x.2) (c x.1)).sum else acc.jac,
        if f then acc.djac + (l.map fun x => m x.1 • comdJ (dyn x.2) (c x.1)).sum else acc.djac⟩ := by
  induction l generalizing acc with
  | nil => cases f <;> simp <;> rfl
  | cons x l ih =>
    rw [List.map_cons, List.foldlM_cons, comStep_ok (hd x List.mem_cons_self) (hQ x List.mem_cons_self)]
    simp only [bind, Except.bind]
    rw [ih (fun y hy => hQ y (List.mem_cons_of_mem _ hy)) (fun y hy => hd y (List.mem_cons_of_mem _ hy))]
    cases f <;> simp [add_assoc]

open Classical in
lemma filter_sum {α A : Type} [AddCommMonoid A] (l : List α) (m : α → ℝ) (hm : ∀ x ∈ l, 0 ≤ m x) (g : α → A)
    (hg : ∀ x ∈ l, m x = 0 → g x = 0) : ((l.filter fun x => 0 < m x).map g).sum = (l.map g).sum := by
  induction l with
  | nil => rfl
  | cons x l ih =>
    have ih := ih (fun y hy => hm y (List.mem_cons_of_mem _ hy)) (fun y hy => hg y (List.mem_cons_of_mem _ hy))
    rw [List.filter_cons]
    split_ifs with h
    · rw [List.map_cons, List.map_cons, List.sum_cons, List.sum_cons, ih]
    · rw [List.map_cons, List.sum_cons, ih, hg x List.mem_cons_self, zero_add]
      refine le_antisymm (not_lt.mp ?_) (hm x List.mem_cons_self)
      simpa using h

/-- what is asked of the user's bodies: rigid-body mass matrices, positive definite where the mass is not null -/
structure Spec.ComBodies {β : Type} (eig : Mat3 → Mat3) (us : List (Body × β)) (m : Body → ℝ) (c : Body → Vec3)
    (I : Body → Mat3) : Prop where
  mass : ∀ x ∈ us, IsRigidMass x.1.mass (m x.1) (c x.1) (I x.1)
  nonneg : ∀ x ∈ us, 0 ≤ m x.1
  pd : ∀ x ∈ us, 0 < m x.1 → SymPD x.1.mass
  eig : ∀ x ∈ us, 0 < m x.1 → EigOk eig x.1.mass

lemma comUpdate_ok {β : Type} {eig : Mat3 → Mat3} {us : List (Body × β)} {m : Body → ℝ} {c : Body → Vec3} {I : Body → Mat3}
    (h : ComBodies eig us m c I) : ∃ sel, comInit eig us = .ok sel ∧
      ∀ (f : Bool) (dyn : β → BodyDyn n), (∀ x ∈ us, IsRigid (dyn x.2).pose) →
      comUpdate f sel dyn = .ok ⟨(us.map fun x => m x.1).sum⁻¹ • (us.map fun x => m x.1 • toGround (dyn x.2).pose (c x.1)).sum,
        if f then (us.map fun x => m x.1).sum⁻¹ • (us.map fun x => m x.1 • comJ (dyn x.2) (c x.1)).sum else 0,
        if f then (us.map fun x => m x.1).sum⁻¹ • (us.map fun x => m x.1 • comdJ (dyn x.2) (c x.1)).sum else 0⟩ := by
  classical
  obtain ⟨Q, hQ, e⟩ := comInit_ok h.mass h.pd h.eig
  refine ⟨_, e, fun f dyn hd => ?_⟩
  have s1 : ((us.filter fun x => 0 < m x.1).map fun x => m x.1).sum = (us.map fun x => m x.1).sum :=
    filter_sum us (fun x => m x.1) h.nonneg (fun x => m x.1) (fun x _ hx => hx)
  have s2 := filter_sum us (fun x => m x.1) h.nonneg (fun x => m x.1 • toGround (dyn x.2).pose (c x.1))
    (fun x _ hx => by simp [hx])
  have s3 := filter_sum us (fun x => m x.1) h.nonneg (fun x => m x.1 • comJ (dyn x.2) (c x.1))
    (fun x _ hx => by simp [hx])
  have s4 := filter_sum us (fun x => m x.1) h.nonneg (fun x => m x.1 • comdJ (dyn x.2) (c x.1))
    (fun x _ hx => by simp [hx])
  unfold comUpdate
  rw [comFold_ok dyn f _ Q c m (fun x hx => hQ x (List.mem_filter.mp hx).1 (by simpa using (List.mem_filter.mp hx).2))
    (fun x hx => hd x (List.mem_filter.mp hx).1), s2, s3, s4]
  simp only [bind, Except.bind, List.map_map]
  have s1' : (List.map ((fun x : β × Mat4 × ℝ => x.2.2) ∘ fun x : Body × β => (x.2, mkH (Q x.1) (c x.1), m x.1))
      (us.filter fun x => 0 < m x.1)).sum = (us.map fun x => m x.1).sum := s1
  rw [s1']
  cases f <;> simp [pure, Except.pure]

/-- C64: for any list of bodies (massless ones included; at least one not), `init` and `update` raise nothing, and the
position is the centre of mass. -/
theorem C64_position {β : Type} {eig : Mat3 → Mat3} {us : List (Body × β)} {m : Body → ℝ} {c : Body → Vec3} {I : Body → Mat3}
    (h : ComBodies eig us m c I) : ∃ sel, comInit eig us = .ok sel ∧
      ∀ (f : Bool) (dyn : β → BodyDyn n), (∀ x ∈ us, IsRigid (dyn x.2).pose) →
      ∃ out, comUpdate f sel dyn = .ok out ∧
        out.position = centreOfMass (us.map fun x => (m x.1, toGround (dyn x.2).pose (c x.1))) := by
  obtain ⟨sel, e, hu⟩ := comUpdate_ok (n := n) h
  refine ⟨sel, e, fun f dyn hd => ⟨_, hu f dyn hd, ?_⟩⟩
  simp only [centreOfMass, List.map_map]; rfl

lemma comJ_mulVec {d : BodyDyn n} {ν : Fin n → ℝ} (hd : d.twist = d.jac *ᵥ ν) (c : Vec3) :
    comJ d c *ᵥ ν = rot d.pose *ᵥ (lin d.twist + ang d.twist ⨯₃ c) := by
  have : comJ d c *ᵥ ν = lin (comAd (rot d.pose) c *ᵥ (d.jac *ᵥ ν)) := by
    rw [Matrix.mulVec_mulVec]; rfl
  rw [this, ← hd]
  conv_lhs => rw [← tw_ang_lin d.twist]
  rw [comAd, blk_mulVec, lin_tw, Matrix.neg_mulVec, ← Matrix.mulVec_mulVec, Arboris.skew_mulVec, ← cross_anticomm,
    Matrix.mulVec_neg, neg_neg, ← Matrix.mulVec_add, add_comm]

lemma hasDerivV_list_sum {ι α : Type} (l : List α) (g : α → ℝ → ι → ℝ) (g' : α → ι → ℝ) (t : ℝ)
    (h : ∀ x ∈ l, HasDerivV (g x) (g' x) t) :
    HasDerivV (fun s => (l.map fun x => g x s).sum) (l.map g').sum t := by
  induction l with
  | nil => exact HasDerivV.const 0 t
  | cons x l ih =>
    simp only [List.map_cons, List.sum_cons]
    exact (h x List.mem_cons_self).add (ih fun y hy => h y (List.mem_cons_of_mem _ hy))

lemma hasDeriv_list_sum {ι κ α : Type} (l : List α) (g : α → ℝ → Matrix ι κ ℝ) (g' : α → Matrix ι κ ℝ) (t : ℝ)
    (h : ∀ x ∈ l, HasDeriv (g x) (g' x) t) :
    HasDeriv (fun s => (l.map fun x => g x s).sum) (l.map g').sum t := by
  induction l with
  | nil => exact HasDeriv.const 0 t
  | cons x l ih =>
    simp only [List.map_cons, List.sum_cons]
    exact (h x List.mem_cons_self).add (ih fun y hy => h y (List.mem_cons_of_mem _ hy))

lemma list_sum_mulVec {α : Type} (l : List α) (g : α → Matrix (Fin 3) (Fin n) ℝ) (ν : Fin n → ℝ) :
    (l.map g).sum *ᵥ ν = (l.map fun x => g x *ᵥ ν).sum := by
  induction l with
  | nil => simp
  | cons x l ih => simp [Matrix.add_mulVec, ih]

/-- C64: the jacobian times the generalized velocity is the velocity of the centre of mass: for any bodies in motion whose
twists are the velocities of their poses and are given by their jacobians (C21, C24: so it is in every tree). -/
theorem C64_jacobian {β : Type} {eig : Mat3 → Mat3} {us : List (Body × β)} {m : Body → ℝ} {c : Body → Vec3} {I : Body → Mat3}
    (h : ComBodies eig us m c I) (dyn : ℝ → β → BodyDyn n) (t : ℝ) (ν : Fin n → ℝ)
    (hr : ∀ x ∈ us, IsRigid (dyn t x.2).pose)
    (ht : ∀ x ∈ us, HasTwist (fun s => (dyn s x.2).pose) (dyn t x.2).twist t)
    (hj : ∀ x ∈ us, (dyn t x.2).twist = (dyn t x.2).jac *ᵥ ν) :
    ∃ sel out, comInit eig us = .ok sel ∧ comUpdate true sel (dyn t) = .ok out ∧
      HasDerivV (fun s => centreOfMass (us.map fun x => (m x.1, toGround (dyn s x.2).pose (c x.1)))) (out.jac *ᵥ ν) t := by
  obtain ⟨sel, e, hu⟩ := comUpdate_ok (n := n) h
  refine ⟨sel, _, e, hu true (dyn t) hr, ?_⟩
  simp only [centreOfMass, List.map_map, if_true]
  have key := hasDerivV_list_sum us (fun x s => m x.1 • toGround (dyn s x.2).pose (c x.1))
    (fun x => m x.1 • (comJ (dyn t x.2) (c x.1) *ᵥ ν)) t (by
      intro x hx i
      have h1 := (hasDerivAt_toGround (hr x hx) (ht x hx) (c x.1) i).const_mul (m x.1)
      refine h1.congr_deriv ?_
      rw [comJ_mulVec (hj x hx), Pi.smul_apply, smul_eq_mul]
      congr 1
      obtain ⟨R, p, hR, e⟩ := isRigid_iff.mp (hr x hx)
      rw [e, rot_mkH, toGround_mkH, pos_mkH, add_sub_cancel_right, hR.cross, Matrix.mulVec_add])
  rw [Matrix.smul_mulVec, list_sum_mulVec]
  intro i
  have := (key i).const_mul (us.map fun x => m x.1).sum⁻¹
  refine this.congr_deriv ?_
  simp only [Pi.smul_apply, smul_eq_mul, Matrix.smul_mulVec]

/-- C64 in a tree: the bodies of numbers `is` (repetitions allowed) of any tree of valid moving joints. -/
theorem C64_tree {eig : Mat3 → Mat3} (F : Forest LinkT Body) (is : List ℕ) (bd : ℕ → Body) (dyn : ℝ → ℕ → BodyDyn n)
    (hi : ∀ s, ∀ i ∈ is, (worldDynamic n (treeAt F s))[i]? = some (bd i, dyn s i))
    {m : Body → ℝ} {c : Body → Vec3} {I : Body → Mat3} (h : ComBodies eig (is.map fun i => (bd i, i)) m c I)
    (t : ℝ) (ν : Fin n → ℝ) (hv : ∀ l ∈ F.links, ValidLink (l.at t)) (hm : ∀ l ∈ F.links, l.Moving t)
    (hc : ∀ l ∈ F.links, Consistent ν (l.at t)) :
    ∃ sel out, comInit eig (is.map fun i => (bd i, i)) = .ok sel ∧ comUpdate true sel (dyn t) = .ok out ∧
      out.position = centreOfMass (is.map fun i => (m (bd i), toGround (dyn t i).pose (c (bd i)))) ∧
      HasDerivV (fun s => centreOfMass (is.map fun i => (m (bd i), toGround (dyn s i).pose (c (bd i))))) (out.jac *ᵥ ν) t := by
  have hk : ∀ i ∈ is, ∃ x ∈ F.paths, ∀ s, dyn s i = dynAt n x.2 s := by
    intro i h
    have hlen : i < F.paths.length := by
      have := hi t i h
      rw [worldDynamic_treeAt] at this
      have := (List.getElem?_eq_some_iff.mp this).1
      simpa using this
    refine ⟨F.paths[i], List.getElem_mem hlen, fun s => ?_⟩
    have := hi s i h
    rw [worldDynamic_treeAt] at this
    simp only [List.getElem?_map, List.getElem?_eq_getElem hlen, Option.map_some, Option.some.injEq, Prod.mk.injEq] at this
    exact this.2.symm
  have hr : ∀ x ∈ is.map fun i => (bd i, i), IsRigid (dyn t x.2).pose := by
    intro x hx
    obtain ⟨i, h1, rfl⟩ := List.mem_map.mp hx
    obtain ⟨y, hy, e⟩ := hk i h1
    simp only [e]
    exact isRigid_dynAt fun l hl => hv l (mem_links_of_mem_paths hy hl)
  have ht : ∀ x ∈ is.map fun i => (bd i, i), HasTwist (fun s => (dyn s x.2).pose) (dyn t x.2).twist t := by
    intro x hx
    obtain ⟨i, h1, rfl⟩ := List.mem_map.mp hx
    obtain ⟨y, hy, e⟩ := hk i h1
    simp only [e]
    exact dynAt_hasTwist (fun l hl => hv l (mem_links_of_mem_paths hy hl)) (fun l hl => hm l (mem_links_of_mem_paths hy hl))
  have hj : ∀ x ∈ is.map fun i => (bd i, i), (dyn t x.2).twist = (dyn t x.2).jac *ᵥ ν := by
    intro x hx
    obtain ⟨i, h1, rfl⟩ := List.mem_map.mp hx
    have hmem : (bd i, dyn t i) ∈ worldDynamic n (treeAt F t) := List.mem_of_getElem? (hi t i h1)
    refine C21_twist ν (treeAt F t) ?_ _ hmem
    intro l hl
    rw [treeAt, links_map] at hl
    obtain ⟨l', hl', rfl⟩ := List.mem_map.mp hl
    exact hc l' hl'
  obtain ⟨sel, out, e1, e2, hd⟩ := C64_jacobian h dyn t ν hr ht hj
  obtain ⟨sel', e1', hp⟩ := C64_position (n := n) h
  obtain ⟨out', e2', hp⟩ := hp true (dyn t) hr
  rw [e1] at e1'
  obtain rfl := Except.ok.inj e1'
  rw [e2] at e2'
  obtain rfl := Except.ok.inj e2'
  refine ⟨sel, out, e1, e2, ?_, ?_⟩
  · rw [hp, List.map_map]; rfl
  · simp only [List.map_map] at hd; exact hd

/-- C64: a list without massive bodies yields an empty selection (and the code then divides by zero) -/
theorem C64_empty {β : Type} {eig : Mat3 → Mat3} {us : List (Body × β)} (h : ∀ x ∈ us, x.1.mass 5 5 ≤ 0) :
    comInit eig us = .ok [] := by
  classical
  have : us.filter (fun b => decide (0 < b.1.mass 5 5)) = [] := by
    rw [List.filter_eq_nil_iff]
    intro x hx
    simpa using h x hx
  rw [comInit, this]; rfl

/-! ### C65 -/

/-- the term left out by `_CoMdJacobian` for one body -/
noncomputable def Spec.missing (d : BodyDyn n) (c : Vec3) : Matrix (Fin 3) (Fin n) ℝ :=
  rot d.pose * skew (ang d.twist ⨯₃ c) * Matrix.of fun i : Fin 3 => d.jac (e6 (Sum.inl i))

lemma lower3_blk (A B C D : Mat3) (J : Matrix (Fin 6) (Fin n) ℝ) :
    lower3 (blk A B C D * J) = C * (Matrix.of fun i : Fin 3 => J (e6 (Sum.inl i))) + D * lower3 J := by
  ext i j
  fin_cases i <;> simp [lower3, blk, Matrix.mul_apply, Fin.sum_univ_six, Fin.sum_univ_three] <;> ring

lemma lower3_add (A B : Matrix (Fin 6) (Fin n) ℝ) : lower3 (A + B) = lower3 A + lower3 B := rfl

lemma list_sum_sub {α A : Type} [AddCommGroup A] (l : List α) (f g : α → A) :
    (l.map fun x => f x - g x).sum = (l.map f).sum - (l.map g).sum := by
  induction l with
  | nil => simp
  | cons x l ih => simp only [List.map_cons, List.sum_cons, ih]; abel

/-- C65, what the code computes: `dJacobian` is the derivative of the jacobian plus the mean of
`R·skew(ω × c)·J_ω` over the bodies.  (Hypothesis: `djacobian` is the derivative of `jacobian` for each body, C23.) -/
theorem C65_error_partial {β : Type} {eig : Mat3 → Mat3} {us : List (Body × β)} {m : Body → ℝ} {c : Body → Vec3} {I : Body → Mat3}
    (h : ComBodies eig us m c I) (dyn : ℝ → β → BodyDyn n) (t : ℝ)
    (hr : ∀ s, ∀ x ∈ us, IsRigid (dyn s x.2).pose)
    (ht : ∀ x ∈ us, HasTwist (fun s => (dyn s x.2).pose) (dyn t x.2).twist t)
    (hj : ∀ x ∈ us, HasDeriv (fun s => (dyn s x.2).jac) (dyn t x.2).djac t) :
    ∃ (sel : List (β × Mat4 × ℝ)) (out : ℝ → ComOut n), comInit eig us = .ok sel ∧
      (∀ s, comUpdate true sel (dyn s) = .ok (out s)) ∧
      HasDeriv (fun s => (out s).jac) ((out t).djac -
        (us.map fun x => m x.1).sum⁻¹ • (us.map fun x => m x.1 • missing (dyn t x.2) (c x.1)).sum) t := by
  obtain ⟨sel, e, hu⟩ := comUpdate_ok (n := n) h
  refine ⟨sel, _, e, fun s => hu true (dyn s) (hr s), ?_⟩
  simp only [if_true]
  have key := hasDeriv_list_sum us (fun x s => m x.1 • comJ (dyn s x.2) (c x.1))
    (fun x => m x.1 • (comdJ (dyn t x.2) (c x.1) - missing (dyn t x.2) (c x.1))) t (by
      intro x hx
      have hrot := ((ht x hx).rot_pos (hr t x hx)).1
      have hAd : HasDeriv (fun s => comAd (rot (dyn s x.2).pose) (c x.1)) _ t :=
        HasDeriv.blk hrot (HasDeriv.const 0 t) ((hrot.mul (HasDeriv.const (skew (c x.1)) t)).neg) hrot
      have hJ := hAd.mul (hj x hx)
      intro i j
      have h1 := (hJ (e6 (Sum.inr i)) j).const_mul (m x.1)
      refine h1.congr_deriv ?_
      rw [Matrix.smul_apply, smul_eq_mul]
      congr 1
      have e3 : ∀ A : Matrix (Fin 6) (Fin n) ℝ, A (e6 (Sum.inr i)) j = lower3 A i j := fun _ => rfl
      refine (e3 _).trans ?_
      refine congrFun (congrFun ?_ i) j
      rw [comdJ, missing, adjacency_eq, ang_tw, lin_tw, comAd, blk_mul, lower3_add, lower3_add, lower3_blk, lower3_blk,
        lower3_blk, skew_cross]
      simp only [Matrix.mul_zero, add_zero, skew_zero, zero_add, Matrix.neg_mul, Matrix.mul_sub, Matrix.sub_mul,
        Matrix.mul_assoc]
      abel)
  intro i j
  refine ((key i j).const_mul (us.map fun x => m x.1).sum⁻¹).congr_deriv ?_
  simp only [smul_sub, list_sum_sub, Matrix.sub_apply, Matrix.smul_apply, smul_eq_mul]
  ring

/-- C65, where it holds: if every massive body of the list rotates about an axis through its centre of mass (or does not
rotate, or has its centre of mass at its origin), `dJacobian` is the derivative of the jacobian. -/
theorem C65_aligned_partial {β : Type} {eig : Mat3 → Mat3} {us : List (Body × β)} {m : Body → ℝ} {c : Body → Vec3}
    {I : Body → Mat3} (h : ComBodies eig us m c I) (dyn : ℝ → β → BodyDyn n) (t : ℝ)
    (hr : ∀ s, ∀ x ∈ us, IsRigid (dyn s x.2).pose)
    (ht : ∀ x ∈ us, HasTwist (fun s => (dyn s x.2).pose) (dyn t x.2).twist t)
    (hj : ∀ x ∈ us, HasDeriv (fun s => (dyn s x.2).jac) (dyn t x.2).djac t)
    (ha : ∀ x ∈ us, m x.1 ≠ 0 → ang (dyn t x.2).twist ⨯₃ c x.1 = 0) :
    ∃ (sel : List (β × Mat4 × ℝ)) (out : ℝ → ComOut n), comInit eig us = .ok sel ∧
      (∀ s, comUpdate true sel (dyn s) = .ok (out s)) ∧ HasDeriv (fun s => (out s).jac) (out t).djac t := by
  obtain ⟨sel, out, e, hu, hd⟩ := C65_error_partial h dyn t hr ht hj
  refine ⟨sel, out, e, hu, ?_⟩
  have z : (us.map fun x => m x.1 • missing (dyn t x.2) (c x.1)).sum = 0 := by
    apply List.sum_eq_zero
    intro y hy
    obtain ⟨x, hx, rfl⟩ := List.mem_map.mp hy
    by_cases hm : m x.1 = 0
    · rw [hm, zero_smul]
    · rw [missing, ha x hx hm, skew_zero]; simp
  rwa [z, smul_zero, sub_zero] at hd

/-- a unit mass with unit central inertia, centre of mass at (1,0,0) -/
noncomputable def exBody : Body := ⟨blk (Matrix.diagonal ![1,2,2]) (skew ![1,0,0]) (-skew ![1,0,0]) 1, 0⟩

lemma exBody_rigid : IsRigidMass exBody.mass 1 ![1,0,0] (Matrix.diagonal ![1,2,2]) :=
  ⟨Matrix.diagonal_transpose _, by rw [exBody, one_smul, one_smul]⟩

lemma exBody_central : centralInertia exBody.mass = 1 := by
  ext i j; fin_cases i <;> fin_cases j <;>
    simp [centralInertia, exBody, blk, b11, b12, skew, Matrix.mul_apply, Fin.sum_univ_three] <;> norm_num

lemma exBody_pd : SymPD exBody.mass := by
  refine ⟨?_, fun x hx => ?_⟩
  · ext i j; fin_cases i <;> fin_cases j <;> simp [exBody, blk, skew]
  · have e : x ⬝ᵥ exBody.mass *ᵥ x = x 0 ^ 2 + x 1 ^ 2 + x 2 ^ 2 + x 3 ^ 2 + (x 4 + x 2) ^ 2 + (x 5 - x 1) ^ 2 := by
      simp [exBody, blk, skew, dotProduct, Matrix.mulVec, Fin.sum_univ_six]; ring
    rw [e]
    by_contra hn
    apply hx
    have h0 : x 0 ^ 2 = 0 := by nlinarith [sq_nonneg (x 0), sq_nonneg (x 1), sq_nonneg (x 2), sq_nonneg (x 3), sq_nonneg (x 4 + x 2), sq_nonneg (x 5 - x 1)]
    have h1 : x 1 ^ 2 = 0 := by nlinarith [sq_nonneg (x 0), sq_nonneg (x 1), sq_nonneg (x 2), sq_nonneg (x 3), sq_nonneg (x 4 + x 2), sq_nonneg (x 5 - x 1)]
    have h2 : x 2 ^ 2 = 0 := by nlinarith [sq_nonneg (x 0), sq_nonneg (x 1), sq_nonneg (x 2), sq_nonneg (x 3), sq_nonneg (x 4 + x 2), sq_nonneg (x 5 - x 1)]
    have h3 : x 3 ^ 2 = 0 := by nlinarith [sq_nonneg (x 0), sq_nonneg (x 1), sq_nonneg (x 2), sq_nonneg (x 3), sq_nonneg (x 4 + x 2), sq_nonneg (x 5 - x 1)]
    have h4 : (x 4 + x 2) ^ 2 = 0 := by nlinarith [sq_nonneg (x 0), sq_nonneg (x 1), sq_nonneg (x 2), sq_nonneg (x 3), sq_nonneg (x 4 + x 2), sq_nonneg (x 5 - x 1)]
    have h5 : (x 5 - x 1) ^ 2 = 0 := by nlinarith [sq_nonneg (x 0), sq_nonneg (x 1), sq_nonneg (x 2), sq_nonneg (x 3), sq_nonneg (x 4 + x 2), sq_nonneg (x 5 - x 1)]
    simp only [pow_eq_zero_iff, ne_eq, OfNat.ofNat_ne_zero, not_false_eq_true] at h0 h1 h2 h3 h4 h5
    ext i; fin_cases i
    · exact h0
    · exact h1
    · exact h2
    · exact h3
    · simpa [h2] using h4
    · simpa [h1] using h5

lemma exBody_eig : EigOk (fun _ => 1) exBody.mass :=
  ⟨by simp, ![1,1,1], by
    rw [exBody_central, IsEig]
    have : Matrix.diagonal (![1,1,1] : Vec3) = 1 := by
      ext i j; fin_cases i <;> fin_cases j <;> simp
    rw [this]⟩

lemma exBody_com : ComBodies (fun _ => 1) [(exBody, ())] (fun _ => 1) (fun _ => ![1,0,0])
    (fun _ => Matrix.diagonal ![1,2,2]) where
  mass := by simpa using exBody_rigid
  nonneg := by simp
  pd := by simpa using exBody_pd
  eig := by simpa using exBody_eig

/-- an `RzJoint` turning at unit speed -/
noncomputable def exRz : LinkT := linLink .Rz (fun s _ => s) (fun _ _ => 1) 0 1 1

lemma exRz_ok (t : ℝ) : ValidLink (exRz.at t) ∧ exRz.Moving t ∧ exRz.MovingJac t := by
  have hd : HasDerivV (fun s (_ : Fin 1) => s) (fun _ => 1) t := fun _ => hasDerivAt_id t
  exact ⟨(C20_library_valid .Rz (fun s _ => s) (fun _ _ => 1) 0 isRigid_one isRigid_one t
      (H := fun _ => 1) isRigid_one (fun _ => 0)).1,
   (C24_library_moving .Rz (fun s _ => s) (fun _ _ => 1) 0 1 1 t hd (H := fun _ => 1) (T := fun _ => 0)
     (HasTwist.const t)).1,
   (C23_library_movingJac .Rz (fun s _ => s) (fun _ _ => 1) 0 1 1 t hd (fun _ => 1) (fun _ => 0)).1⟩

lemma invBody_one' : invBody (1 : Mat4) = 1 := by
  have := isRigid_one.mul_invBody; rwa [Matrix.one_mul] at this

lemma exRz_jac (s : ℝ) : (dynAt 1 [exRz] s).jac = !![0; 0; 1; 0; 0; 0] := by
  change (dynStep (groundDyn 1) (exRz.at s)).jac = _
  rw [dynStep_jac]
  change _ * (0 : Matrix (Fin 6) (Fin 1) ℝ) + adjointBody (1 : Mat4) * (!![0; 0; 1; 0; 0; 0] : Matrix (Fin 6) (Fin 1) ℝ) *
    selMat 1 0 1 = _
  rw [Matrix.mul_zero, zero_add, adjointBody_one, Matrix.one_mul]
  ext i j; fin_cases i <;> fin_cases j <;> simp [selMat, Matrix.mul_apply]

lemma exRz_djac (s : ℝ) : (dynAt 1 [exRz] s).djac = 0 := by
  change (dynStep (groundDyn 1) (exRz.at s)).djac = _
  rw [dynStep_djac]
  change _ * (0 : Matrix (Fin 6) (Fin 1) ℝ) + _ * (0 : Matrix (Fin 6) (Fin 1) ℝ) +
    adjointBody (1 : Mat4) * (0 : Matrix (Fin 6) (Fin 1) ℝ) * selMat 1 0 1 = _
  simp

lemma exRz_twist (s : ℝ) : (dynAt 1 [exRz] s).twist = ![0, 0, 1, 0, 0, 0] := by
  have e : (dynAt 1 [exRz] s).twist = iadjointBody (relPose (exRz.at s)) *ᵥ (0 : Vec6) +
    adjointBody (1 : Mat4) *ᵥ (LinKind.jac .Rz (fun _ : Fin 1 => s) *ᵥ (fun _ : Fin 1 => (1 : ℝ))) := rfl
  rw [e, Matrix.mulVec_zero, zero_add, adjointBody_one, Matrix.one_mulVec, twist_Rz]

/-- C65 at full strength: whatever the tree, its motion and the bodies, if the bodies' own `djacobian` are right then so is
the `dJacobian` of the centre of mass. -/
def C65_Claim : Prop := ∀ (n : ℕ) (eig : Mat3 → Mat3) (us : List (Body × Unit)) (m : Body → ℝ) (c : Body → Vec3)
    (I : Body → Mat3), ComBodies eig us m c I → ∀ (dyn : ℝ → Unit → BodyDyn n) (t : ℝ),
    (∀ s, ∀ x ∈ us, IsRigid (dyn s x.2).pose) →
    (∀ x ∈ us, HasTwist (fun s => (dyn s x.2).pose) (dyn t x.2).twist t) →
    (∀ x ∈ us, HasDeriv (fun s => (dyn s x.2).jac) (dyn t x.2).djac t) →
    ∃ (sel : List (Unit × Mat4 × ℝ)) (out : ℝ → ComOut n), comInit eig us = .ok sel ∧
      (∀ s, comUpdate true sel (dyn s) = .ok (out s)) ∧ HasDeriv (fun s => (out s).jac) (out t).djac t

/-- C65 is false of the code: one body with its centre of mass at (1,0,0), turning about z on an `RzJoint`. -/
theorem C65_false : ¬ C65_Claim := by
  intro hC
  have hr : ∀ s, IsRigid (dynAt 1 [exRz] s).pose := fun s =>
    isRigid_dynAt fun l hl => by
      obtain rfl := List.mem_singleton.mp hl
      exact (exRz_ok s).1
  have ht : HasTwist (fun s => (dynAt 1 [exRz] s).pose) (dynAt 1 [exRz] 0).twist 0 :=
    dynAt_hasTwist (fun l hl => by obtain rfl := List.mem_singleton.mp hl; exact (exRz_ok 0).1)
      (fun l hl => by obtain rfl := List.mem_singleton.mp hl; exact (exRz_ok 0).2.1)
  have hj : HasDeriv (fun s => (dynAt 1 [exRz] s).jac) (dynAt 1 [exRz] 0).djac 0 := by
    simp only [exRz_jac, exRz_djac]; exact HasDeriv.const _ _
  obtain ⟨sel, out, e, hu, hd⟩ := hC 1 _ _ _ _ _ exBody_com (fun s _ => dynAt 1 [exRz] s) 0 (fun s _ _ => hr s)
    (fun _ _ => ht) (fun _ _ => hj)
  obtain ⟨sel', out', e', hu', hd'⟩ := C65_error_partial exBody_com (fun s _ => dynAt 1 [exRz] s) 0 (fun s _ _ => hr s)
    (fun _ _ => ht) (fun _ _ => hj)
  rw [e] at e'
  obtain rfl := Except.ok.inj e'
  have : out = out' := by
    funext s
    have := hu s
    rw [hu' s] at this
    exact (Except.ok.inj this).symm
  subst this
  have h0 := hd.unique hd'
  have h1 := sub_eq_self.mp h0.symm
  have h2 : missing (dynAt 1 [exRz] 0) ![1,0,0] = 0 := by simpa using h1
  rw [missing, exRz_jac, exRz_twist] at h2
  have h3 := congrArg (fun A => (rot (dynAt 1 [exRz] 0).pose)ᵀ * A) h2
  simp only [← Matrix.mul_assoc, (hr 0).rotation.2.1, Matrix.one_mul, Matrix.mul_zero] at h3
  have h4 := congrFun (congrFun h3 0) 0
  simp [skew, ang, cross_apply, Matrix.mul_apply, Fin.sum_univ_three, e6, finSumFinEquiv] at h4

/-! ### the hypotheses of C63 and C64 are met -/

/-- one `RzJoint` carrying a unit mass with its centre of mass at (1,0,0), then a second one on it: the hypotheses of
C63_energies and of C64_tree (bodies 0 and 1) hold -/
example : let F : Forest LinkT Body := .cons exRz exBody (.cons { exRz with start := 1 } exBody .nil .nil) .nil
    (∀ l ∈ (treeAt F 0).links, ValidLink l) ∧ (∀ l ∈ (treeAt F 0).links, Consistent (fun _ : Fin 2 => (1 : ℝ)) l) ∧
    (∀ x ∈ (treeAt F 0).paths, IsRigidMass x.1.mass 1 ![1,0,0] (Matrix.diagonal ![1,2,2]) ∧ SymPD x.1.mass ∧
      EigOk (fun _ => 1) x.1.mass) ∧
    (∀ l ∈ F.links, l.Moving 0) := by
  intro F
  have hl : ∀ l ∈ F.links, l = exRz ∨ l = { exRz with start := 1 } := by
    intro l hl
    simpa [F, Forest.links] using hl
  have hl' : ∀ l ∈ (treeAt F 0).links, l = exRz.at 0 ∨ l = { exRz with start := 1 }.at 0 := by
    intro l h
    rw [treeAt, links_map] at h
    obtain ⟨l', h1, rfl⟩ := List.mem_map.mp h
    rcases hl l' h1 with rfl | rfl
    · exact Or.inl rfl
    · exact Or.inr rfl
  refine ⟨?_, ?_, ?_, ?_⟩
  · intro l h
    rcases hl' l h with rfl | rfl
    · exact (exRz_ok 0).1
    · have := (exRz_ok 0).1
      exact ⟨this.1, this.2, this.3, this.4⟩
  · intro l h
    rcases hl' l h with rfl | rfl
    · exact ⟨by decide, rfl⟩
    · exact ⟨by decide, rfl⟩
  · intro x hx
    have : x.1 = exBody := by
      simp [F, treeAt, Forest.map, Forest.paths] at hx
      rcases hx with rfl | rfl <;> rfl
    rw [this]
    exact ⟨exBody_rigid, exBody_pd, exBody_eig⟩
  · intro l h
    rcases hl l h with rfl | rfl <;> exact (exRz_ok 0).2.1

end Arboris
