import Verif.Props.PDStable
import Verif.Proofs.ImplicitEuler

/-!
# C118, continued: proportional-derivative control brings sliding mechanisms to rest
-/

namespace Arboris
open Matrix Spec Mech Build Sim

variable {n : ℕ}

/-! ### specification -/

/-- the proportional gains of `k` dofs are strictly positive -/
def Spec.StrictGains (k : ℕ) (g : PDGains) : Prop :=
  ∀ x : ℕ → ℝ, (∃ i < k, x i ≠ 0) → 0 < ∑ i ∈ Finset.range k, ∑ j ∈ Finset.range k, x i * g.kp i j * x j

/-- `r` is the world `w` with its joints in other positions, where the forces of the controllers cancel -/
structure Spec.RestOf (up : Vec3) (cs : List LibCtrl) (w r : MWorld n Unit) : Prop where
  moved : ∃ u : Fin n → ℝ, ForestRel (Moved 1 u) w.tree r.tree
  dyn : r.dyn = worldDynamic n (linksOf r)
  forces : ∃ dt vals, askAll up r dt cs = .ok vals ∧ (vals.map (·.gforce)).sum = 0

/-- kinetic energy, and energy of the springs away from the rest position -/
noncomputable def Spec.unrest (js : List ℕ) (g : PDGains) (r w : MWorld n Unit) : ℝ :=
  (1 / 2) * (w.gvel ⬝ᵥ worldMass (worldDynamic n (linksOf w)) *ᵥ w.gvel) +
    springs { g with gposDes := fun i => (gposOf r js).getD i 0 } (gposOf w js)

/-- the steps of the timeline are not shorter than `h` -/
def Spec.StepsAtLeast (h : ℝ) : List ℝ → Prop
  | t :: t' :: ts => h ≤ t' - t ∧ StepsAtLeast h (t' :: ts)
  | _ => True

/-! ### what is constant -/

lemma visc_slid {dt : ℝ} {v : Fin n → ℝ} {bs bs' : List (Body × BodyDyn n)}
    (h : List.Forall₂ (fun x y : Body × BodyDyn n => x.1 = y.1 ∧ Still x.2 ∧ Still y.2 ∧ Slid dt v x.2 y.2) bs bs') : worldViscosity bs' = worldViscosity bs := by
  unfold worldViscosity
  generalize (0 : Matrix (Fin n) (Fin n) ℝ) = A
  induction h generalizing A with
  | nil => rfl
  | cons h1 _ ih =>
    simp only [List.foldl_cons]
    rw [h1.2.2.2.jac, ← h1.1]
    exact ih _

lemma weight_const {γ : ℝ} {up : Vec3} {dt : ℝ} {v : Fin n → ℝ} {bs bs' : List (Body × BodyDyn n)}
    (h : List.Forall₂ (fun x y : Body × BodyDyn n => x.1 = y.1 ∧ Still x.2 ∧ Still y.2 ∧ Slid dt v x.2 y.2) bs bs')
    (hM : ∀ x ∈ bs, ∃ m c I, IsRigidMass x.1.mass m c I ∧ 0 ≤ m) : weightUpdateE γ up bs' = weightUpdateE γ up bs := by
  have hz : ∀ x ∈ bs, ∀ H : Mat4, (∀ i j, x.1.mass i j ≤ 0) → x.1.mass *ᵥ (iadjointBody H *ᵥ gravityTwist γ up) = 0 := by
    intro x hx H hneg
    obtain ⟨m, c, I, hr, h0⟩ := hM x hx
    have hz : m = 0 := by
      refine le_antisymm ?_ h0
      have := hneg 3 3
      simp only [hr.eq] at this
      simpa [blk] using this
    unfold gravityTwist
    rw [iadj_zero, hr.eq, hz, blk_mulVec]
    simp [tw_zero]
  have hb : ∀ y ∈ bs', ∃ x ∈ bs, x.1 = y.1 ∧ Still y.2 := by
    intro y hy
    obtain ⟨x, hx, hxy⟩ := forall₂_left h.flip y hy
    exact ⟨x, hx, hxy.1, hxy.2.2.1⟩
  rw [weightUpdateE_ok γ up bs (fun x hx => (forall₂_left h x hx).choose_spec.2.2.1.pose) fun x hx => hz x hx _,
    weightUpdateE_ok γ up bs' (fun y hy => (hb y hy).choose_spec.2.2.pose) fun y hy hneg => by
      obtain ⟨x, hx, e, -⟩ := hb y hy
      rw [← e] at hneg ⊢
      exact hz x hx _ hneg]
  congr 3
  clear hM hz hb
  induction h with
  | nil => rfl
  | cons h1 _ ih =>
    rw [List.map_cons, List.map_cons, ih, h1.2.2.2.jac, ← h1.1]
    unfold gravityTwist
    rw [iadj_zero, iadj_zero, h1.2.2.2.rot]

lemma weight_impedance {γ : ℝ} {up : Vec3} {bs : List (Body × BodyDyn n)} {out : CtrlVal n} (h : weightUpdateE γ up bs = .ok out) : out.impedance = 0 := by
  unfold weightUpdateE at h
  simp only [bind, Except.bind] at h
  split at h
  · cases h
  · obtain rfl := Except.ok.inj h
    rfl

/-- what a displacement does not change -/
structure Like (up : Vec3) (w w' : MWorld n Unit) : Prop where
  mass : worldMass (worldDynamic n (linksOf w')) = worldMass (worldDynamic n (linksOf w))
  visc : worldViscosity (worldDynamic n (linksOf w')) = worldViscosity (worldDynamic n (linksOf w))
  weight : ∀ γ, weightUpdateE γ up (worldDynamic n (linksOf w')) = weightUpdateE γ up (worldDynamic n (linksOf w))
  map : ∀ js, pdDofMap (pdRead w' js) = pdDofMap (pdRead w js)
  len : ∀ js, (gposOf w' js).length = (gposOf w js).length

lemma Like.trans {up : Vec3} {w w' w'' : MWorld n Unit} (h : Like up w w') (h' : Like up w' w'') : Like up w w'' :=
  ⟨h'.mass.trans h.mass, h'.visc.trans h.visc, fun γ => (h'.weight γ).trans (h.weight γ), fun js => (h'.map js).trans (h.map js), fun js => (h'.len js).trans (h.len js)⟩

lemma like_moved {up : Vec3} {m : Body → ℝ} {c : Body → Vec3} {I : Body → Mat3} {cs : List LibCtrl} {dt : ℝ} {u : Fin n → ℝ} {w w' : MWorld n Unit}
    (hw : Sound up m c I cs w) (h : ForestRel (Moved dt u) w.tree w'.tree) : Like up w w' := by
  have hslid := dyn_slid h hw.links (still_ground n) (still_ground n) (slid_ground dt u)
  refine ⟨mass_slid hslid, visc_slid hslid, fun γ => weight_const hslid fun x hx => ⟨_, _, _, (hw.bodies _ (mem_dyn hx)).1, (hw.bodies _ (mem_dyn hx)).2.1⟩,
    fun js => (moved_lists (read_moved h.links.1 js)).1, fun js => ?_⟩
  rw [gposOf_read, gposOf_read]
  exact (moved_lists (read_moved h.links.1 js)).2.1

lemma same_weights {up : Vec3} {a r : MWorld n Unit} {dt dt' : ℝ} (he : ∀ γ, weightUpdateE γ up a.dyn = weightUpdateE γ up r.dyn) :
    ∀ {ws : List LibCtrl} {vs vs' : List (CtrlVal n)}, (∀ x ∈ ws, ∃ γ, x = .weight γ) → List.Forall₂ (fun x v => LibCtrl.update up a dt x = .ok v) ws vs →
      List.Forall₂ (fun x v => LibCtrl.update up r dt' x = .ok v) ws vs' → vs = vs' ∧ (vs.map (·.impedance)).sum = 0 := by
  intro ws vs vs' hw h h'
  induction h generalizing vs' with
  | nil =>
    cases h'
    exact ⟨rfl, rfl⟩
  | @cons x v ws vs h1 _ ih =>
    cases h' with
    | @cons _ v' _ vs' h2 h3 =>
      obtain ⟨γ, rfl⟩ := hw x (by simp)
      have e1 : weightUpdateE γ up a.dyn = .ok v := h1
      have e2 : weightUpdateE γ up r.dyn = .ok v' := h2
      obtain rfl : v = v' := Except.ok.inj ((e1.symm.trans (he γ)).trans e2)
      obtain ⟨rfl, i2⟩ := ih (fun y hy => hw y (by simp [hy])) h3
      refine ⟨rfl, ?_⟩
      rw [List.map_cons, List.sum_cons, i2, weight_impedance e1, add_zero]

/-- the total force during a step: springs towards the rest position, and damping -/
lemma total_law {up : Vec3} {m : Body → ℝ} {c : Body → Vec3} {I : Body → Mat3} {js : List ℕ} {g : PDGains} {ws : List LibCtrl} {dt : ℝ} {w r : MWorld n Unit}
    (hw : Sound up m c I (.pd js g :: ws) w) (hws : ∀ x ∈ ws, ∃ γ, x = .weight γ) (hl : Like up w r) (hrd : r.dyn = worldDynamic n (linksOf r))
    (hrf : ∃ dt vals, askAll up r dt (.pd js g :: ws) = .ok vals ∧ (vals.map (·.gforce)).sum = 0)
    {a : MWorld n Unit} (ha : a.tree = w.tree) (hd : a.dyn = worldDynamic n (linksOf w)) {vals : List (CtrlVal n)}
    (hv : List.Forall₂ (fun x v => LibCtrl.update up a dt x = .ok v) (.pd js g :: ws) vals) (v u : Fin n → ℝ) :
    u ⬝ᵥ ((vals.map (·.gforce)).sum + (vals.map (·.impedance)).sum *ᵥ v) =
      ∑ i ∈ Finset.range (gposOf w js).length, (∑ j ∈ Finset.range (gposOf w js).length,
        (g.kp i j * -((gposOf w js).getD j 0 - (gposOf r js).getD j 0 + dt * wide v ((pdDofMap (pdRead w js)).getD j 0)) -
          g.kd i j * wide v ((pdDofMap (pdRead w js)).getD j 0))) * wide u ((pdDofMap (pdRead w js)).getD i 0) := by
  obtain ⟨dt', vals', hask, hsum⟩ := hrf
  have hv' := askAll_inv hask
  cases hv with
  | @cons _ val _ vs h1 h2 =>
  cases hv' with
  | @cons _ val' _ vs' h1' h2' =>
  have hwt : ∀ γ, weightUpdateE γ up a.dyn = weightUpdateE γ up r.dyn := by
    intro γ
    rw [hd, hrd, hl.weight γ]
  obtain ⟨rfl, hz⟩ := same_weights hwt hws h2 h2'
  have e1 : pdUpdate n g (pdRead w js) dt = .ok val := by
    have h3 : pdUpdate n g (pdRead a js) dt = .ok val := h1
    have e : pdRead a js = pdRead w js := by unfold pdRead; rw [ha]
    rwa [e] at h3
  have e2 : pdUpdate n g (pdRead r js) dt' = .ok val' := h1'
  have hg := hw.ctrl (.pd js g) (by simp)
  have hnd := pdDofMap_nodup hw.num hg.1
  have hlen : (pdDofMap (pdRead w js)).length = (gposOf w js).length := by
    rw [gposOf_read]
    have := pd_lengths (pdRead w js)
    omega
  have d1 := pd_dot e1 hnd v u
  have d2 := pd_dot e2 (by rw [hl.map js]; exact hnd) 0 u
  rw [Matrix.mulVec_zero, add_zero, hl.map js, ← gposOf_read, hlen] at d2
  rw [← gposOf_read, hlen] at d1
  have hs : u ⬝ᵥ val'.gforce + u ⬝ᵥ (vs.map (·.gforce)).sum = 0 := by
    rw [← dotProduct_add]
    rw [List.map_cons, List.sum_cons] at hsum
    rw [hsum, dotProduct_zero]
  simp only [List.map_cons, List.sum_cons, hz, add_zero]
  have e3 : u ⬝ᵥ (val.gforce + (vs.map (·.gforce)).sum + val.impedance *ᵥ v) = u ⬝ᵥ (val.gforce + val.impedance *ᵥ v) - u ⬝ᵥ val'.gforce := by
    simp only [dotProduct_add]
    linarith
  rw [e3, d1, d2, ← Finset.sum_sub_distrib]
  refine Finset.sum_congr rfl fun i _ => ?_
  rw [← sub_mul, ← Finset.sum_sub_distrib]
  congr 1
  refine Finset.sum_congr rfl fun j hj => ?_
  rw [hg.2.des j (Finset.mem_range.mp hj)]
  have : wide (0 : Fin n → ℝ) ((pdDofMap (pdRead w js)).getD j 0) = 0 := by
    unfold wide
    split <;> rfl
  rw [this]
  ring

lemma Like.symm {up : Vec3} {w w' : MWorld n Unit} (h : Like up w w') : Like up w' w :=
  ⟨h.mass.symm, h.visc.symm, fun γ => (h.weight γ).symm, fun js => (h.map js).symm, fun js => (h.len js).symm⟩

/-- a step brings the world nearer to rest, by a factor that does not depend on the step -/
lemma contraction_step {up : Vec3} {m : Body → ℝ} {c : Body → Vec3} {I : Body → Mat3} {js : List ℕ} {g : PDGains} {ws : List LibCtrl} {w0 r : MWorld n Unit}
    (hw0 : Sound up m c I (.pd js g :: ws) w0) (hws : ∀ x ∈ ws, ∃ γ, x = .weight γ) (hr : RestOf up (.pd js g :: ws) w0 r) (hall : (gposOf w0 js).length = n)
    (hst : StrictGains n g) {h : ℝ} (hh : 0 < h) :
    ∃ ρ : ℝ, 0 ≤ ρ ∧ ρ < 1 ∧ ∀ (dt : ℝ) (w s w' : MWorld n Unit), Sound up m c I (.pd js g :: ws) w → Like up w0 w → WStep (libPlug n up (.pd js g :: ws)) dt w s w' →
      h ≤ dt → unrest js g r w' ≤ ρ * unrest js g r w := by
  have hg := hw0.ctrl (.pd js g) (by simp)
  have hnd := pdDofMap_nodup hw0.num hg.1
  have hlr : Like up w0 r := like_moved hw0 hr.moved.choose_spec
  have hlen : (pdDofMap (pdRead w0 js)).length = n := by
    refine Eq.trans ?_ hall
    rw [gposOf_read]
    have := pd_lengths (pdRead w0 js)
    omega
  by_cases hin : ∀ d ∈ pdDofMap (pdRead w0 js), d < n
  swap
  · refine ⟨0, le_refl _, one_pos, ?_⟩
    intro dt w s w' hw hl hs _
    obtain ⟨-, -, a, ha, -, vals, hv, -⟩ := step_facts hw hs
    cases hv with
    | cons h1 _ =>
      have h2 : pdUpdate n g (pdRead a js) dt = .ok _ := h1
      have e : pdRead a js = pdRead w js := by unfold pdRead; rw [ha]
      rw [e] at h2
      have := (pdUpdate_inv h2).2.2
      rw [hl.map js] at this
      exact absurd this hin
  · set μ := pdDofMap (pdRead w0 js) with hμ
    have hget : ∀ i : Fin n, μ.getD i 0 < n := by
      intro i
      have hi : i.val < μ.length := by omega
      rw [List.getD_eq_getElem _ _ hi]
      exact hin _ (List.getElem_mem hi)
    set π : Fin n → Fin n := fun i => ⟨μ.getD i 0, hget i⟩ with hπ
    have hinj : Function.Injective π := by
      intro i j hij
      have h1 : μ.getD i 0 = μ.getD j 0 := congrArg Fin.val hij
      have hi : i.val < μ.length := by omega
      have hj : j.val < μ.length := by omega
      rw [List.getD_eq_getElem _ _ hi, List.getD_eq_getElem _ _ hj] at h1
      exact Fin.ext ((List.Nodup.getElem_inj_iff hnd).mp h1)
    have hsur : Function.Surjective π := Finite.surjective_of_injective hinj
    set Kp : Matrix (Fin n) (Fin n) ℝ := Matrix.of fun i j => g.kp i j with hKp
    set Kd : Matrix (Fin n) (Fin n) ℝ := Matrix.of fun i j => g.kd i j with hKd
    have hform : ∀ (K : ℕ → ℕ → ℝ) (x y : ℕ → ℝ), ∑ i ∈ Finset.range n, ∑ j ∈ Finset.range n, x i * K i j * y j =
        (fun i : Fin n => x i) ⬝ᵥ (Matrix.of fun i j : Fin n => K i j) *ᵥ (fun i : Fin n => y i) := by
      intro K x y
      rw [Finset.sum_range]
      simp only [dotProduct, Matrix.mulVec, Matrix.of_apply, Finset.mul_sum]
      refine Finset.sum_congr rfl fun i _ => ?_
      rw [Finset.sum_range]
      exact Finset.sum_congr rfl fun j _ => by ring
    have hg : js.Nodup ∧ GoodGains n g := by
      refine ⟨hg.1, ?_⟩
      have := hg.2
      rwa [hall] at this
    have hPD : SymPD Kp := by
      refine ⟨?_, ?_⟩
      · ext i j
        simp only [Kp, Matrix.transpose_apply, Matrix.of_apply]
        exact hg.2.symm _ j.2 _ i.2
      · intro x hx
        have h1 : ∃ i < n, wide x i ≠ 0 := by
          by_contra hc
          push Not at hc
          apply hx
          rw [← wide_val x]
          funext i
          exact hc i i.2
        have := hst (wide x) h1
        rw [hform] at this
        simpa only [wide_val] using this
    obtain ⟨C, hC0, hC⟩ := euler_loss (worldViscosity (worldDynamic n (linksOf w0))) (C27_psd (worldDynamic n (linksOf w0)) fun x hx => (hw0.bodies _ (mem_dyn hx)).2.2.1)
      Kd hPD π hsur hh
    refine ⟨C / (1 + C), by positivity, by rw [div_lt_one (by positivity)]; linarith, ?_⟩
    intro dt w s w' hw hl hs hdt
    obtain ⟨hw', hslid, a, ha, hd, vals, hv, he⟩ := step_facts hw hs
    have law := total_law hw hws (hl.symm.trans hlr) hr.dyn hr.forces ha hd hv w'.gvel
    have hB := C27_viscosity (worldDynamic n (linksOf w)) fun x hx => (hw.bodies _ (mem_dyn hx)).2.2.2
    have hM := C27_psd (worldDynamic n (linksOf w)) fun x hx => (hw.bodies _ (mem_dyn hx)).2.2.1
    rw [hl.len js, hall, hl.map js, ← hμ] at law
    obtain ⟨-, m2, m3⟩ := moved_lists (read_moved hs.tree.links.1 js)
    rw [← gposOf_read, ← gposOf_read] at m2 m3
    rw [hl.len js, hall] at m2
    rw [hl.len js, hall, hl.map js, ← hμ] at m3
    have hdt0 := hs.pos
    set x : ℕ → ℝ := fun i => wide w'.gvel (μ.getD i 0) with hx
    set e : ℕ → ℝ := fun i => (gposOf w js).getD i 0 - (gposOf r js).getD i 0 with he0
    have hxπ : (fun i : Fin n => x i) = w'.gvel ∘ π := by
      funext i
      simp only [hx, hπ, Function.comp]
      unfold wide
      rw [dif_pos (hget i)]
    -- the positions at the end of the step
    have hpos : ∀ i < n, (gposOf w' js).getD i 0 - (gposOf r js).getD i 0 = e i + dt * x i := by
      intro i hi
      rw [m3 i hi]
      simp only [he0, hx]
      ring
    have hU' : unrest js g r w' = (1 / 2) * (w'.gvel ⬝ᵥ worldMass (worldDynamic n (linksOf w)) *ᵥ w'.gvel) +
        (1 / 2) * ∑ i ∈ Finset.range n, ∑ j ∈ Finset.range n, (e i + dt * x i) * g.kp i j * (e j + dt * x j) := by
      unfold unrest springs
      rw [mass_slid hslid, m2]
      congr 2
      refine Finset.sum_congr rfl fun i hi => Finset.sum_congr rfl fun j hj => ?_
      simp only
      rw [hpos i (Finset.mem_range.mp hi), hpos j (Finset.mem_range.mp hj)]
    have hU : unrest js g r w = (1 / 2) * (w.gvel ⬝ᵥ worldMass (worldDynamic n (linksOf w)) *ᵥ w.gvel) +
        (1 / 2) * ∑ i ∈ Finset.range n, ∑ j ∈ Finset.range n, e i * g.kp i j * e j := by
      unfold unrest springs
      rw [hl.len js, hall]
    set M := worldMass (worldDynamic n (linksOf w)) with hMd
    set B := worldViscosity (worldDynamic n (linksOf w)) with hBd
    set T := (vals.map (·.gforce)).sum + (vals.map (·.impedance)).sum *ᵥ w'.gvel with hT
    -- the loss of the step
    have hquad := quad_move n g.kp hg.2.symm e fun i => dt * x i
    have hkd := hg.2.kd x
    have e4 : ∑ i ∈ Finset.range n, ∑ j ∈ Finset.range n, (dt * x i) * g.kp i j * (dt * x j) = dt ^ 2 * ∑ i ∈ Finset.range n, ∑ j ∈ Finset.range n, x i * g.kp i j * x j := by
      rw [Finset.mul_sum]
      refine Finset.sum_congr rfl fun i _ => ?_
      rw [Finset.mul_sum]
      exact Finset.sum_congr rfl fun j _ => by ring
    have hpow : dt * (w'.gvel ⬝ᵥ T) = ∑ i ∈ Finset.range n, (∑ m ∈ Finset.range n, g.kp i m * -(e m + dt * x m)) * (dt * x i) -
        dt * ∑ i ∈ Finset.range n, ∑ j ∈ Finset.range n, x i * g.kd i j * x j := by
      rw [law w'.gvel, Finset.mul_sum, Finset.mul_sum, ← Finset.sum_sub_distrib]
      refine Finset.sum_congr rfl fun i _ => ?_
      rw [Finset.sum_mul, Finset.mul_sum, Finset.sum_mul, Finset.mul_sum, ← Finset.sum_sub_distrib]
      refine Finset.sum_congr rfl fun j _ => ?_
      simp only [he0, hx]
      ring
    have hloss : unrest js g r w' + ((1 / 2) * ((w'.gvel - w.gvel) ⬝ᵥ M *ᵥ (w'.gvel - w.gvel)) +
        (1 / 2) * dt ^ 2 * ∑ i ∈ Finset.range n, ∑ j ∈ Finset.range n, x i * g.kp i j * x j) ≤ unrest js g r w := by
      rw [hU, hU']
      have e1 := congrArg (w'.gvel ⬝ᵥ ·) he
      simp only [dotProduct_add, dotProduct_smul, smul_eq_mul] at e1
      have hsym : w.gvel ⬝ᵥ M *ᵥ w'.gvel = w'.gvel ⬝ᵥ M *ᵥ w.gvel := by
        rw [dotProduct_comm, ← dot_transpose_mul, hM.1]
      have e3 := hB.2 w'.gvel
      have hpow' := hpow
      rw [hT, dotProduct_add] at hpow'
      simp only [Matrix.mulVec_sub, sub_dotProduct, dotProduct_sub] at e1 ⊢
      rw [hsym]
      nlinarith [mul_nonneg hdt0.le e3, mul_nonneg hdt0.le hkd]
    -- what is left is bounded by the loss
    rw [← hl.mass, ← hl.visc, ← hMd, ← hBd] at hC
    have hleft := hC dt w.gvel w'.gvel (fun i => e i + dt * x i) hdt (by
      intro i
      have h1 := congrFun he (π i)
      simp only [Pi.add_apply, Pi.smul_apply, smul_eq_mul] at h1
      have h2 := law (Pi.single (π i) 1)
      rw [single_one_dotProduct] at h2
      have h3 : ∀ j < n, wide (Pi.single (π i) (1 : ℝ)) (μ.getD j 0) = if j = i.val then 1 else 0 := by
        intro j hj
        have hjn := hget ⟨j, hj⟩
        unfold wide
        rw [dif_pos hjn, Pi.single_apply]
        have h4 : (⟨μ.getD j 0, hjn⟩ : Fin n) = π i ↔ j = i.val := by
          constructor
          · intro h5
            exact congrArg Fin.val (hinj (a₁ := ⟨j, hj⟩) (a₂ := i) h5)
          · intro h5
            subst h5
            rfl
        simp only [h4]
      have h5 : T (π i) = ∑ j ∈ Finset.range n, (g.kp i j * -(e j + dt * x j) - g.kd i j * x j) := by
        rw [h2, Finset.sum_eq_single i.val]
        · rw [h3 i i.2, if_pos rfl, mul_one]
        · intro j hj hne
          rw [h3 j (Finset.mem_range.mp hj), if_neg hne, mul_zero]
        · intro hc
          exact absurd (Finset.mem_range.mpr i.2) hc
      have h6 : (Kp *ᵥ fun i : Fin n => e i + dt * x i) i + (Kd *ᵥ (w'.gvel ∘ π)) i = -T (π i) := by
        rw [h5, ← hxπ, Finset.sum_range, ← Finset.sum_neg_distrib]
        simp only [Matrix.mulVec, dotProduct, Kp, Kd, Matrix.of_apply, ← Finset.sum_add_distrib]
        exact Finset.sum_congr rfl fun j _ => by ring
      rw [h6]
      linarith)
    have hf1 := hform g.kp (fun i => e i + dt * x i) (fun i => e i + dt * x i)
    have hf2 := hform g.kp x x
    rw [hxπ] at hf2
    rw [← hf1, ← hf2, ← hU'] at hleft
    have h8 : unrest js g r w' ≤ C * (unrest js g r w - unrest js g r w') := by
      refine hleft.trans (mul_le_mul_of_nonneg_left ?_ hC0)
      linarith
    rw [div_mul_eq_mul_div, le_div_iff₀ (by positivity)]
    linarith

end Arboris
