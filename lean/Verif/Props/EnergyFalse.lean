import Verif.Props.EnergyRun
import Verif.Props.TreeFalse

/-!
# C29, C132: the energy of mechanisms with a wrist is not conserved
-/

namespace Arboris
open Matrix Spec Mech Build Sim Turn

/-- a body which turns around the x axis of the ground, and a body which turns around the z and y axes of the first one; turning -/
noncomputable def wrist : MWorld 3 Unit :=
  ⟨.cons ⟨.lin .Rx (fun _ => 0) (fun _ => 1), 0, 1, 1⟩ ⟨0, 0⟩ (.cons ⟨.lin .RzRy ![0, Real.pi / 2] ![1, 1], 0, 1, 1⟩ ⟨1, 0⟩ .nil .nil) .nil,
    0, [], 0, 0, 0, ⟨0, 0, 0⟩, [], ()⟩

/-- mass of the bodies -/
noncomputable def wristMass (b : Body) : ℝ := b.mass 3 3

lemma wrist_jointed : JointedWorld wristMass (fun _ => 0) wrist := by
  refine ⟨by simp [ndof, wrist, Forest.links, JAttr.ndof, LinKind.ndof], ?_, ?_, rfl⟩
  · intro l hl
    simp only [wrist, Forest.links, List.append_nil, List.mem_cons, List.not_mem_nil, or_false] at hl
    rcases hl with rfl | rfl
    · exact ⟨fun H T h => (by cases h), ⟨isRigid_one, isRigid_one, fun H T h => (by cases h)⟩⟩
    · exact ⟨fun H T h => (by cases h), ⟨isRigid_one, isRigid_one, fun H T h => (by cases h)⟩⟩
  · intro b hb
    simp only [wrist, Forest.bodies, List.append_nil, List.mem_cons, List.not_mem_nil, or_false] at hb
    rcases hb with rfl | rfl
    · exact ⟨⟨0, ⟨Matrix.transpose_zero, by simp [blk_zero, wristMass]⟩⟩, by simp [wristMass]⟩
    · exact ⟨⟨1, ⟨Matrix.transpose_one, by simp [skew_zero, blk_one, wristMass]⟩⟩, by simp [wristMass]⟩

lemma wrist_masses : ∀ b ∈ wrist.tree.bodies, 1e-10 < wristMass b ∨ wristMass b • (0 : Vec3) = 0 := fun b _ => .inr (by simp)

lemma wrist_viscosity : ∀ b ∈ wrist.tree.bodies, b.viscosity = 0 := by
  intro b hb
  simp only [wrist, Forest.bodies, List.append_nil, List.mem_cons, List.not_mem_nil, or_false] at hb
  rcases hb with rfl | rfl <;> rfl

/-- the jacobians do not depend on the velocities -/
lemma Turn.jac_same {n : ℕ} (x u u' : Fin n → ℝ) : ∀ (F : Forest MLink Body) {s s' : BodyDyn n}, s.jac = s'.jac →
    (updateDynamic s (F.map (linkAt (x, u)) id)).map (fun y => (y.1, y.2.jac)) = (updateDynamic s' (F.map (linkAt (x, u')) id)).map fun y => (y.1, y.2.jac)
  | .nil, s, s', h => rfl
  | .cons l b ch sib, s, s', h => by
    have hj : (dynStep s (linkAt (x, u) l)).jac = (dynStep s' (linkAt (x, u') l)).jac := by
      obtain ⟨att, start, b0, b1⟩ := l
      cases att <;> simp only [dynStep, h] <;> rfl
    simp only [Forest.map, updateDynamic, List.map_cons, List.map_append, id, Turn.jac_same x u u' ch hj, Turn.jac_same x u u' sib h, hj]

lemma Turn.mass_same {n : ℕ} (w : MWorld n Unit) (x u u' : Fin n → ℝ) : worldMass (bodiesAt w x u) = worldMass (bodiesAt w x u') := by
  have h := Turn.jac_same x u u' w.tree (s := groundDyn n) (s' := groundDyn n) rfl
  have e : ∀ v, bodiesAt w x v = updateDynamic (groundDyn n) (w.tree.map (linkAt (x, v)) id) := by
    intro v
    rw [bodiesAt, worldDynamic, linksOf, worldAt]
    dsimp only
    rw [map_map']
    rfl
  rw [worldMass_eq, worldMass_eq, e, e]
  have := congrArg (List.map fun y : Body × Matrix (Fin 6) (Fin n) ℝ => y.2ᵀ * y.1.mass * y.2) h
  simp only [List.map_map, Function.comp_def] at this
  rw [this]

/-- coordinates turning at unit rates -/
noncomputable def wristPath (s : ℝ) : Fin 3 → ℝ := ![s, s, Real.pi / 2 + s]

lemma wrist_tree {w0 : MWorld 3 Unit} (h : Mech.init wrist = .ok w0) (s : ℝ) : linksOf (worldAt w0 (wristPath s) fun _ => 1) = treeAt exF s := by
  have ht : w0.tree = .cons ⟨.lin .Rx (fun _ => 0) (fun _ => 1), 0, 1, 1⟩ ⟨0, 0⟩ (.cons ⟨.lin .RzRy ![0, Real.pi / 2] ![1, 1], 1, 1, 1⟩ ⟨1, 0⟩ .nil .nil) .nil := by
    obtain rfl := Except.ok.inj h
    rfl
  have e1 : linkAt (wristPath s, fun _ => (1 : ℝ)) ⟨.lin .Rx (fun _ => 0) (fun _ => 1), 0, 1, 1⟩ = exRx.at s := by
    have h1 : (fun i : Fin 1 => entry (wristPath s) (0 + i)) = fun _ => s := by funext i; fin_cases i; simp [entry, wristPath]
    have h2 : (fun i : Fin 1 => entry (fun _ : Fin 3 => (1 : ℝ)) (0 + i)) = fun _ => 1 := by funext i; fin_cases i; simp [entry]
    exact congrArg₂ (fun q dq => (⟨1, 0, (LinKind.Rx.val (q : Fin 1 → ℝ) dq : JointVal 1), 1, 1⟩ : Link)) h1 h2
  have e2 : linkAt (wristPath s, fun _ => (1 : ℝ)) ⟨.lin .RzRy ![0, Real.pi / 2] ![1, 1], 1, 1, 1⟩ = (exRzRy 0 (Real.pi / 2) 1 1).at s := by
    have h1 : (fun i : Fin 2 => entry (wristPath s) (1 + i)) = ![0 + s * 1, Real.pi / 2 + s * 1] := by funext i; fin_cases i <;> simp [entry, wristPath]
    have h2 : (fun i : Fin 2 => entry (fun _ : Fin 3 => (1 : ℝ)) (1 + i)) = ![1, 1] := by funext i; fin_cases i <;> simp [entry]
    exact congrArg₂ (fun q dq => (⟨2, 1, (LinKind.RzRy.val (q : Fin 2 → ℝ) dq : JointVal 2), 1, 1⟩ : Link)) h1 h2
  unfold linksOf worldAt
  dsimp only
  rw [map_map', ht]
  change Forest.cons (linkAt (wristPath s, fun _ => (1 : ℝ)) ⟨.lin .Rx (fun _ => 0) (fun _ => 1), 0, 1, 1⟩) (⟨0, 0⟩ : Body) (Forest.cons (linkAt (wristPath s, fun _ => (1 : ℝ)) ⟨.lin .RzRy ![0, Real.pi / 2] ![1, 1], 1, 1, 1⟩) (⟨1, 0⟩ : Body) .nil .nil) .nil = _
  rw [e1, e2]
  rfl

lemma wrist_start {w0 : MWorld 3 Unit} (h : Mech.init wrist = .ok w0) {x : Fin 3 → ℝ} (hx : ∀ l ∈ w0.tree.links, HasPos x l) : x = wristPath 0 ∧ w0.gvel = fun _ => 1 := by
  obtain ⟨w0', h1, hst⟩ := init_started wrist_jointed.dofs
  obtain rfl : w0 = w0' := Except.ok.inj (h.symm.trans h1)
  have ht : w0.tree = .cons ⟨.lin .Rx (fun _ => 0) (fun _ => 1), 0, 1, 1⟩ ⟨0, 0⟩ (.cons ⟨.lin .RzRy ![0, Real.pi / 2] ![1, 1], 1, 1, 1⟩ ⟨1, 0⟩ .nil .nil) .nil := by
    obtain rfl := Except.ok.inj h
    rfl
  have hv := hst.vel
  rw [ht] at hx hv
  simp only [Forest.links, List.append_nil, List.mem_cons, List.not_mem_nil, or_false, forall_eq_or_imp, forall_eq] at hx hv
  obtain ⟨⟨_, a1⟩, _, a2⟩ := hx
  obtain ⟨⟨_, b1⟩, _, b2⟩ := hv
  have a10 : (0 : ℝ) = x 0 := congrFun a1 (0 : Fin 1)
  have a20 : (0 : ℝ) = x 1 := congrFun a2 (0 : Fin 2)
  have a21 : Real.pi / 2 = x 2 := congrFun a2 (1 : Fin 2)
  have b10 : (1 : ℝ) = w0.gvel 0 := congrFun b1 (0 : Fin 1)
  have b20 : (1 : ℝ) = w0.gvel 1 := congrFun b2 (0 : Fin 2)
  have b21 : (1 : ℝ) = w0.gvel 2 := congrFun b2 (1 : Fin 2)
  constructor
  · funext i
    fin_cases i
    · exact a10.symm
    · exact a20.symm
    · exact a21.symm.trans (by simp [wristPath])
  · funext i
    fin_cases i
    · exact b10.symm
    · exact b20.symm
    · exact b21.symm

/-- the energy of the wrist, without forces, decreases at first -/
lemma wrist_loses {up : Vec3} {w0 : MWorld 3 Unit} (h : Mech.init wrist = .ok w0) {T : ℝ} (hT : 0 < T) {x u a : ℝ → Fin 3 → ℝ}
    (hx : ExactPath up wristMass (fun _ => 0) [] w0 0 T x u a) : HasDerivAt (energyAt up wristMass (fun _ => 0) [] w0 x u) (-2) 0 := by
  obtain ⟨w0', h1, hst⟩ := init_started wrist_jointed.dofs
  obtain rfl : w0 = w0' := Except.ok.inj (h.symm.trans h1)
  have hfix := Fixed.started wrist_jointed hst
  obtain ⟨hx0, hg⟩ := wrist_start h hx.pos
  have hu0 : u 0 = fun _ => 1 := hx.vel.trans hg
  have h0 : (0 : ℝ) ∈ Set.Icc 0 T := ⟨le_rfl, hT.le⟩
  have htot : ∀ z : Z 3, totalEnergy up wristMass (fun _ => 0) [] (worldAt w0 z.1 z.2) = 1 / 2 * (z.2 ⬝ᵥ worldMass (bodiesAt w0 z.1 z.2) *ᵥ z.2) := by
    intro z
    simp [totalEnergy, bodiesAt, worldAt]
  have hE := smooth_energy (fun l hl => (hfix.links l hl).1) up wristMass (fun _ => 0) []
  set g := fun z : Z 3 => totalEnergy up wristMass (fun _ => 0) [] (worldAt w0 z.1 z.2) with hgdef
  have hF := (hE.differentiable one_ne_zero (x 0, u 0)).hasFDerivAt
  set g' := fderiv ℝ g (x 0, u 0) with hg'
  set M := worldMass (bodiesAt w0 (x 0) (u 0)) with hM
  -- along the path
  have hA : HasDerivAt (energyAt up wristMass (fun _ => 0) [] w0 x u) (g' (u 0, a 0)) 0 :=
    HasFDerivAt.comp_hasDerivAt (l := g) (f := fun t => (x t, u t)) (0 : ℝ) hF ((hx.dx 0 h0).prodMk (hx.du 0 h0))
  -- when only the coordinates change
  have hB : g' (u 0, 0) = -1 := by
    have hl : HasDerivAt (fun s : ℝ => (wristPath s, (fun _ => 1 : Fin 3 → ℝ))) (u 0, 0) 0 := by
      refine HasDerivAt.prodMk ?_ (hasDerivAt_const _ _)
      rw [hasDerivAt_pi]
      intro i
      rw [hu0]
      fin_cases i
      · exact hasDerivAt_id (0 : ℝ)
      · exact hasDerivAt_id (0 : ℝ)
      · simpa [wristPath] using (hasDerivAt_id (0 : ℝ)).const_add (Real.pi / 2)
    have hF' : HasFDerivAt g g' (wristPath 0, (fun _ => 1 : Fin 3 → ℝ)) := by
      rw [← hx0, ← hu0]
      exact hF
    have h2 := hF'.comp_hasDerivAt (0 : ℝ) hl
    refine h2.unique (exF_energy.2.2.1.congr_of_eventuallyEq (Filter.Eventually.of_forall fun s => ?_))
    simp only [Function.comp, hgdef, htot, bodiesAt, wrist_tree h]
  -- when only the velocities change
  have hC : g' (0, a 0) = u 0 ⬝ᵥ M *ᵥ a 0 := by
    have hl : HasDerivAt (fun s : ℝ => (x 0, u 0 + s • a 0)) (0, a 0) 0 := by
      refine HasDerivAt.prodMk (hasDerivAt_const _ _) ?_
      simpa using ((hasDerivAt_id (0 : ℝ)).smul_const (a 0)).const_add (u 0)
    have hF' : HasFDerivAt g g' (x 0, u 0 + (0 : ℝ) • a 0) := by
      rw [zero_smul, add_zero]
      exact hF
    have h2 := hF'.comp_hasDerivAt (0 : ℝ) hl
    refine h2.unique ?_
    have hsym : a 0 ⬝ᵥ M *ᵥ u 0 = u 0 ⬝ᵥ M *ᵥ a 0 := by
      refine (dot_mulVec_symm _ ?_ _ _)
      refine C27_symmetric _ fun y hy => ?_
      have := mem_dyn hy
      rw [worldAt, bodies_map] at this
      obtain ⟨⟨I, hI⟩, -⟩ := hfix.bodies _ this
      exact hI.transpose
    have h3 : HasDerivAt (fun s : ℝ => 1 / 2 * (u 0 ⬝ᵥ M *ᵥ u 0 + 2 * s * (u 0 ⬝ᵥ M *ᵥ a 0) + s ^ 2 * (a 0 ⬝ᵥ M *ᵥ a 0))) (u 0 ⬝ᵥ M *ᵥ a 0) 0 := by
      have h4 : HasDerivAt (fun s : ℝ => s) 1 0 := hasDerivAt_id (0 : ℝ)
      have h5 := ((((h4.const_mul 2).mul_const (u 0 ⬝ᵥ M *ᵥ a 0)).const_add (u 0 ⬝ᵥ M *ᵥ u 0)).add ((h4.pow 2).mul_const (a 0 ⬝ᵥ M *ᵥ a 0))).const_mul (1 / 2)
      refine h5.congr_deriv ?_
      simp
    refine h3.congr_of_eventuallyEq (Filter.Eventually.of_forall fun s => ?_)
    simp only [Function.comp, hgdef, htot]
    rw [Turn.mass_same w0 (x 0) (u 0 + s • a 0) (u 0), ← hM]
    simp only [Matrix.mulVec_add, Matrix.mulVec_smul, dotProduct_add, add_dotProduct, smul_dotProduct, dotProduct_smul, smul_eq_mul, hsym]
    ring
  -- the law
  have hD : u 0 ⬝ᵥ M *ᵥ a 0 = -1 := by
    have hlaw := hx.law 0 h0
    rw [← hM] at hlaw
    have hBz : worldViscosity (bodiesAt w0 (x 0) (u 0)) = 0 := by
      rw [worldViscosity_eq]
      refine List.sum_eq_zero fun r hr => ?_
      obtain ⟨z, hz, rfl⟩ := List.mem_map.mp hr
      have := mem_dyn hz
      rw [worldAt, bodies_map, ← hst.tree.links.2] at this
      rw [wrist_viscosity _ this]
      simp
    have h2 := congrArg (u 0 ⬝ᵥ ·) hlaw
    have h3 := exF_energy.2.2.2
    rw [Matrix.mulVec_zero, zero_add, ← wrist_tree h 0] at h3
    have h4 : u 0 ⬝ᵥ worldNleffects (bodiesAt w0 (x 0) (u 0)) *ᵥ u 0 = 1 := by
      rw [hx0, hu0]
      exact h3
    rw [hBz] at h2
    simp only [Matrix.zero_mulVec, add_zero, dotProduct_add, List.map_nil, List.sum_nil, dotProduct_zero, h4] at h2
    linarith
  have hsum : g' (u 0, a 0) = -2 := by
    have : ((u 0, a 0) : Z 3) = (u 0, 0) + (0, a 0) := by simp
    rw [this, map_add, hB, hC, hD]
    norm_num
  rwa [hsum] at hA

lemma wrist_jac (ν : Fin 3 → ℝ) : (dynAt 3 [exRx, exRzRy 0 (Real.pi / 2) 1 1] 0).jac *ᵥ ν = tw ![-ν 1, ν 2, ν 0] 0 := by
  have h := chain_jac (n := 3) (exRx.at 0) ((exRzRy 0 (Real.pi / 2) 1 1).at 0) (exRzRy_ok _ _ _ _ 0).1 rfl rfl rfl rfl
  have h' : (dynAt 3 [exRx, exRzRy 0 (Real.pi / 2) 1 1] 0).jac =
    adjointBody (invBody ((exRzRy 0 (Real.pi / 2) 1 1).joint 0).pose) * ((exRx.joint 0).jac * selMat 3 0 exRx.k) +
        ((exRzRy 0 (Real.pi / 2) 1 1).joint 0).jac * selMat 3 1 (exRzRy 0 (Real.pi / 2) 1 1).k := h
  have z3 : (![0, 0, 0] : Vec3) = 0 := by ext i; fin_cases i <;> rfl
  have j1 : ((exRx.joint 0).jac * selMat 3 0 exRx.k) *ᵥ ν = tw ![ν 0, 0, 0] 0 := by
    rw [← Matrix.mulVec_mulVec, selMat_mulVec _ _ _ (by simp [exRx]), ← z3, ← vec6_tw]
    exact twist_Rx (fun _ => 0) (fun _ => ν 0)
  have j2 : (((exRzRy 0 (Real.pi / 2) 1 1).joint 0).jac * selMat 3 1 (exRzRy 0 (Real.pi / 2) 1 1).k) *ᵥ ν = tw ![-ν 1, ν 2, 0] 0 := by
    have hb : 1 + (exRzRy 0 (Real.pi / 2) 1 1).k ≤ 3 := by simp [exRzRy]
    rw [← Matrix.mulVec_mulVec, selMat_mulVec _ _ _ hb]
    have e : slice ν 1 2 hb = ![ν 1, ν 2] := by funext i; fin_cases i <;> rfl
    have := twist_RzRy (![0 + 0 * 1, Real.pi / 2 + 0 * 1] : Fin 2 → ℝ) ![ν 1, ν 2]
    refine (congrArg (LinKind.jac .RzRy (![0 + 0 * 1, Real.pi / 2 + 0 * 1] : Fin 2 → ℝ) *ᵥ ·) e).trans (this.trans ?_)
    rw [vec6_tw, z3]
    simp
  rw [h', Matrix.add_mulVec, j2, ← Matrix.mulVec_mulVec, j1, exRzRy_pose, adj_inv_rot, blk_mulVec, RzRy_eq, tw_add]
  simp only [mulVec3]
  congr 1
  · ext i; fin_cases i <;> simp
  · simp

lemma wrist_mass {w0 : MWorld 3 Unit} (h : Mech.init wrist = .ok w0) : (worldMass (worldDynamic 3 (linksOf w0))).det ≠ 0 := by
  obtain ⟨w0', h1, hst⟩ := init_started wrist_jointed.dofs
  obtain rfl : w0 = w0' := Except.ok.inj (h.symm.trans h1)
  have hfix := Fixed.started wrist_jointed hst
  obtain ⟨q, hq⟩ := pos_exists (n := 3) _ _ hfix.num fun l hl => (hfix.links l hl).1
  have hq' : ∀ l ∈ w0.tree.links, HasPos q l := fun l hl => hq l hl
  obtain ⟨hx0, hg⟩ := wrist_start h hq'
  have e : w0.tree.map (jointAt q w0.gvel) id = w0.tree := map_self fun l hl => jointAt_self (hfix.links l hl).2.1 (hq' l hl) (hst.vel l hl)
  have e2 : linksOf w0 = treeAt exF 0 := by
    rw [← wrist_tree h 0, ← hx0, ← hg]
    unfold linksOf worldAt
    dsimp only
    rw [e]
  rw [e2, exF_world]
  have h1 : SymPSD (1 : Mat6) := ⟨Matrix.transpose_one, fun x => by rw [Matrix.one_mulVec]; exact Finset.sum_nonneg fun i _ => mul_self_nonneg _⟩
  have h2 : SymPD (1 : Mat6) := by
    refine ⟨Matrix.transpose_one, fun x hx => ?_⟩
    rw [Matrix.one_mulVec]
    obtain ⟨i, hi⟩ := Function.ne_iff.mp hx
    exact Finset.sum_pos' (fun i _ => mul_self_nonneg _) ⟨i, Finset.mem_univ i, mul_self_pos.mpr hi⟩
  refine Euler.det_ne (C27_pd _ ?_ ?_)
  · intro x hx
    simp only [List.mem_cons, List.not_mem_nil, or_false] at hx
    rcases hx with rfl | rfl
    · exact ⟨Matrix.transpose_zero, fun x => by simp⟩
    · exact h1
  · intro ν hν
    refine ⟨_, List.mem_cons_of_mem _ (List.mem_cons_self ..), h2, fun h0 => hν ?_⟩
    dsimp only at h0
    rw [wrist_jac] at h0
    funext i
    fin_cases i
    · simpa [tw] using congrFun h0 2
    · simpa [tw] using congrFun h0 0
    · simpa [tw] using congrFun h0 1

/-- C29 is false of the code, as far as its users can see: a mechanism with a wrist (a joint around z and y on a body which turns around x), moving, without any
force, spring, damper, viscosity nor weight.  The simulations with steps as small as wanted do not raise, and all end with less kinetic energy: the loss
does not tend to zero with the steps. -/
theorem C29_runs_false (up : Vec3) : JointedWorld wristMass (fun _ => 0) wrist ∧ (∀ b ∈ wrist.tree.bodies, 1e-10 < wristMass b ∨ wristMass b • (0 : Vec3) = 0) ∧
    (∀ b ∈ wrist.tree.bodies, b.viscosity = 0) ∧ ∃ w0, Mech.init wrist = .ok w0 ∧ ∃ T > 0, ∃ δ > 0, ∃ hmax > 0,
      (∀ (tl : List ℝ) (k : ℕ) (tr : List (Ev (MWorld 3 Unit))) (w' : MWorld 3 Unit) (t' : ℝ), tl.head? = some 0 → tl.getLast? = some T → (∀ t ∈ tl, t ≤ T) →
        tl.IsChain (fun t1 t2 => t2 - t1 ≤ hmax) → simulate (engine (libPlug 3 up [])) wrist tl (.list k) = (tr, .ok (w', t')) →
        1 / 2 * (w'.gvel ⬝ᵥ worldMass (worldDynamic 3 (linksOf w')) *ᵥ w'.gvel) ≤ 1 / 2 * (w0.gvel ⬝ᵥ worldMass (worldDynamic 3 (linksOf w0)) *ᵥ w0.gvel) - δ) ∧
      ∀ (tl : List ℝ) (k : ℕ), tl.head? = some 0 → tl.Pairwise (· < ·) → (∀ t ∈ tl, t ≤ T) → tl.IsChain (fun t1 t2 => t2 - t1 ≤ hmax) →
        ∃ tr w' t', simulate (engine (libPlug 3 up [])) wrist tl (.list k) = (tr, .ok (w', t')) := by
  have hw := wrist_jointed
  refine ⟨hw, wrist_masses, wrist_viscosity, ?_⟩
  obtain ⟨w0, h0, -⟩ := init_started hw.dofs
  obtain ⟨T0, hT0, x, u, a, hx⟩ := C131_exists (up := up) (cs := []) hw h0 (wrist_mass h0) 0
  have hd := wrist_loses h0 hT0 hx
  have hstart := energy_start (es := []) hw h0 hx
  -- a later time with less energy
  obtain ⟨T, hT, hTT, hlt⟩ : ∃ T > 0, T ≤ T0 ∧ energyAt up wristMass (fun _ => 0) [] w0 x u T < energyAt up wristMass (fun _ => 0) [] w0 x u 0 := by
    have h1 := hd.tendsto_slope_zero_right
    have h2 := (h1.eventually (gt_mem_nhds (show (-2 : ℝ) < 0 by norm_num))).and (Ioc_mem_nhdsGT hT0)
    obtain ⟨T, h3, h4⟩ := h2.exists
    refine ⟨T, h4.1, h4.2, ?_⟩
    rw [zero_add, smul_eq_mul] at h3
    have h5 : 0 < T⁻¹ := inv_pos.mpr h4.1
    by_contra hcon
    have : 0 ≤ T⁻¹ * (energyAt up wristMass (fun _ => 0) [] w0 x u T - energyAt up wristMass (fun _ => 0) [] w0 x u 0) := mul_nonneg h5.le (by linarith)
    linarith
  have hsub : Set.Icc 0 T ⊆ Set.Icc 0 T0 := Set.Icc_subset_Icc_right hTT
  have hx' : ExactPath up wristMass (fun _ => 0) [] w0 0 T x u a := ⟨hx.pos, hx.vel, fun t ht => hx.dx t (hsub ht), fun t ht => hx.du t (hsub ht),
    fun t ht => hx.law t (hsub ht), fun t ht => hx.inertia t (hsub ht)⟩
  obtain ⟨C, hC, h1, hh1, hconv⟩ := C132_simulations hw (by simp) h0 hx' []
  obtain ⟨h2, hh2, hruns⟩ := C131_runs hw (by simp) (by simp) h0 hx'
  rw [hstart] at hlt
  set E0 := totalEnergy up wristMass (fun _ => 0) [] w0 with hE0
  set E1 := energyAt up wristMass (fun _ => 0) [] w0 x u T with hE1
  have hpos : 0 < (E0 - E1) / (2 * (C + 1)) := div_pos (by linarith) (by linarith)
  refine ⟨w0, h0, T, hT, (E0 - E1) / 2, by linarith, min (min h1 h2) ((E0 - E1) / (2 * (C + 1))), lt_min (lt_min hh1 hh2) hpos, ?_, ?_⟩
  · intro tl k tr w' t' hhead hlast hTl hch hrun
    set hm := min (min h1 h2) ((E0 - E1) / (2 * (C + 1))) with hhm
    have hm0 : 0 < hm := lt_min (lt_min hh1 hh2) hpos
    obtain ⟨e1, -, e2, -⟩ := hconv hm tl k tr w' t' hm0.le ((min_le_left _ _).trans (min_le_left _ _)) hhead hTl hch hrun
    rw [hlast] at e1
    obtain rfl := Option.some.inj e1
    have e3 : hm * (2 * (C + 1)) ≤ E0 - E1 := by
      have : hm ≤ (E0 - E1) / (2 * (C + 1)) := min_le_right _ _
      rwa [le_div_iff₀ (by linarith)] at this
    have e4 := (abs_le.mp e2).2
    have tot : ∀ v : MWorld 3 Unit, totalEnergy up wristMass (fun _ => 0) [] v = 1 / 2 * (v.gvel ⬝ᵥ worldMass (worldDynamic 3 (linksOf v)) *ᵥ v.gvel) := by
      intro v
      simp [totalEnergy]
    rw [← tot, ← tot]
    nlinarith
  · intro tl k hhead hp hTl hch
    exact hruns tl k hhead hp hTl (hch.imp fun _ _ h => h.trans ((min_le_left _ _).trans (min_le_right _ _)))

end Arboris
