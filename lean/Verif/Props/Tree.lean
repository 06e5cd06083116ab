import Verif.Proofs.Mass

/-! # Properties C19–C25, C27–C29: kinematic trees -/

namespace Arboris
open Matrix Real Spec

lemma Spec.IsRigid.inv_eq {H : Mat4} (h : IsRigid H) : H⁻¹ = Arboris.invBody H :=
  Matrix.inv_eq_left_inv h.invBody_mul

lemma relPose_eq {l : Link} (h : ValidLink l) : relPose l = l.bpose0 * l.joint.pose * l.bpose1⁻¹ := by
  rw [h.bpose1.inv_eq]; simp only [relPose, Matrix.mul_assoc]

/-! ### library joints as links -/

/-- C20 (hypotheses are met): links made of library joints between rigid frames are valid at all times. -/
theorem C20_library_valid (k : LinKind) (q q' : ℝ → Fin k.ndof → ℝ) (start : ℕ) {b0 b1 : Mat4}
    (h0 : IsRigid b0) (h1 : IsRigid b1) (t : ℝ) {H : ℝ → Mat4} (hH : IsRigid (H t)) (T : ℝ → Vec6) :
    ValidLink ((linLink k q q' start b0 b1).at t) ∧ ValidLink ((freeLink H T start b0 b1).at t) ∧
    ValidLink ((fixedLink start b0 b1).at t) := by
  refine ⟨⟨h0, h1, k.isRigid_pose _, ?_⟩, ⟨h0, h1, hH, hH.mul_invBody⟩,
    ⟨h0, h1, isRigid_one, isRigid_one.mul_invBody⟩⟩
  change k.pose (q t) * k.ipose (q t) = 1
  rw [k.ipose_eq]; exact (k.isRigid_pose _).mul_invBody

/-- C24 (hypotheses are met): library joints move with the twist they report. -/
theorem C24_library_moving (k : LinKind) (q q' : ℝ → Fin k.ndof → ℝ) (start : ℕ) (b0 b1 : Mat4) (t : ℝ)
    (hq : HasDerivV q (q' t) t) {H : ℝ → Mat4} {T : ℝ → Vec6} (hH : HasTwist H (T t) t) :
    (linLink k q q' start b0 b1).Moving t ∧ (freeLink H T start b0 b1).Moving t ∧
    (fixedLink start b0 b1).Moving t :=
  ⟨k.hasTwist_pose q (q' t) t hq, hH, HasTwist.const t⟩

/-- C23 (hypotheses are met): the joint-level derivative condition holds for library joints. -/
theorem C23_library_movingJac (k : LinKind) (q q' : ℝ → Fin k.ndof → ℝ) (start : ℕ) (b0 b1 : Mat4) (t : ℝ)
    (hq : HasDerivV q (q' t) t) (H : ℝ → Mat4) (T : ℝ → Vec6) :
    (linLink k q q' start b0 b1).MovingJac t ∧ (freeLink H T start b0 b1).MovingJac t ∧
    (fixedLink start b0 b1).MovingJac t :=
  ⟨k.hasDeriv_jac q (q' t) t hq, HasDeriv.const _ t, HasDeriv.const _ t⟩

/-- C23 (hypotheses are met): one-axis joints, `TxTyTzJoint` and `FixedJoint` satisfy the extra condition. -/
theorem C23_library_ownInvariant (k : LinKind) (hk : k ∉ [LinKind.RzRyRx, .RzRy, .RzRx, .RyRx])
    (q q' : ℝ → Fin k.ndof → ℝ) (start : ℕ) {b0 b1 : Mat4} (t : ℝ) :
    (linLink k q q' start b0 b1).OwnInvariant t ∧ (fixedLink start b0 b1).OwnInvariant t := by
  constructor
  · have hone : k.oneAxis = true := by cases k <;> simp_all [LinKind.oneAxis]
    have hp : IsRigid (k.pose (q t)) := k.isRigid_pose _
    change k.pose (q t) * hat (k.jac (q t) *ᵥ q' t) = hat (k.jac (q t) *ᵥ q' t) * k.pose (q t)
    rw [hp.mul_hat, k.invariant hone]
  · change (1 : Mat4) * hat 0 = hat 0 * 1
    simp

/-! ### C19 -/

/-- C19: one joint between two frames: with the parent at `s`, the child's pose is
`parent · bpose0 · joint pose · bpose1⁻¹`, its twist is the parent's twist seen from the child plus
`Ad(bpose1)·joint twist`, and this last term is the twist of the relative motion. -/
theorem C19_step {B : Type} {n : ℕ} (s : BodyDyn n) (l : LinkT) (b : B) (t : ℝ)
    (hv : ValidLink (l.at t)) (hm : l.Moving t) :
    ∃ d, updateDynamic s (.cons (l.at t) b .nil .nil) = [(b, d)] ∧
      d.pose = s.pose * (l.bpose0 * (l.joint t).pose * l.bpose1⁻¹) ∧
      (∃ A : Mat6, A * adjointBody (l.bpose0 * (l.joint t).pose * l.bpose1⁻¹) = 1 ∧
        d.twist = A *ᵥ s.twist + adjointBody l.bpose1 *ᵥ (l.joint t).twist) ∧
      HasTwist (fun u => l.bpose0 * (l.joint u).pose * l.bpose1⁻¹)
        (adjointBody l.bpose1 *ᵥ (l.joint t).twist) t := by
  refine ⟨_, rfl, ?_, ⟨iadjointBody (relPose (l.at t)), ?_, rfl⟩, ?_⟩
  · rw [dynStep_pose, relPose_eq hv]; rfl
  · have := relPose_eq hv
    change relPose (l.at t) = l.bpose0 * (l.joint t).pose * l.bpose1⁻¹ at this
    rw [← this]
    exact hv.relPose.adjoint_inv_mul
  · have h := relPose_hasTwist hv hm
    have e : (fun u => l.bpose0 * (l.joint u).pose * l.bpose1⁻¹) = fun u => relPose (l.at u) := by
      funext u
      have hb : IsRigid l.bpose1 := hv.bpose1
      rw [hb.inv_eq]; simp only [relPose, LinkT.at, Matrix.mul_assoc]
    rw [e]; exact h

/-! ### C20 -/

/-- C20: `World.update_geometric` gives every body the product of the relative poses on its path. -/
theorem C20_geometric {B : Type} (F : Forest Link B) (hv : ∀ l ∈ F.links, ValidLink l) :
    worldGeometric F = F.paths.map fun x =>
      (x.1, (x.2.map fun l => l.bpose0 * l.joint.pose * l.bpose1⁻¹).prod) := by
  rw [worldGeometric, updateGeometric_eq]
  apply List.map_congr_left
  intro x hx
  rw [foldl_geo, Matrix.one_mul]
  congr 2
  apply List.map_congr_left
  intro l hl
  exact relPose_eq (hv l (mem_links_of_mem_paths hx hl))
/-- C20: `World.update_dynamic` gives the same poses. -/
theorem C20_dynamic {B : Type} (n : ℕ) (F : Forest Link B) :
    (worldDynamic n F).map (fun x => (x.1, x.2.pose)) = worldGeometric F := by
  rw [worldGeometric, worldDynamic, updateGeometric_eq, updateDynamic_eq, List.map_map]
  apply List.map_congr_left
  intro x _
  simp [foldl_dyn_pose, foldl_geo, groundDyn]
/-- C20: all bodies are visited once, depth first, and all poses are rigid motions. -/
theorem C20_rigid {B : Type} (F : Forest Link B) (hv : ∀ l ∈ F.links, ValidLink l) :
    (worldGeometric F).map Prod.fst = F.bodies ∧ ∀ x ∈ worldGeometric F, IsRigid x.2 := by
  constructor
  · rw [worldGeometric]
    generalize (1 : Mat4) = s
    induction F generalizing s with
    | nil => rfl
    | cons l b ch sib ih1 ih2 =>
      simp only [Forest.links, List.cons_append, List.mem_cons, List.mem_append] at hv
      simp [updateGeometric, Forest.bodies, ih1 (fun l h => hv l (Or.inr (Or.inl h))),
        ih2 (fun l h => hv l (Or.inr (Or.inr h)))]
  · intro x hx
    rw [worldGeometric, updateGeometric_eq] at hx
    obtain ⟨y, hy, rfl⟩ := List.mem_map.mp hx
    have := isRigid_foldl (n := 0) y.2 (groundDyn 0) isRigid_one
      (fun l hl => hv l (mem_links_of_mem_paths hy hl))
    rw [foldl_dyn_pose] at this
    simpa [foldl_geo, groundDyn] using this
/-- C20: none of the assertions of `Hg.inv`, `Hg.adjoint`, `Hg.iadjoint` fires in either update. -/
theorem C20_no_assertion {B : Type} (n : ℕ) (F : Forest Link B) (hv : ∀ l ∈ F.links, ValidLink l) :
    updateGeometricE 1 F = .ok (worldGeometric F) ∧
    updateDynamicE (groundDyn n) F = .ok (worldDynamic n F) :=
  ⟨updateGeometricE_ok F hv _, updateDynamicE_ok F hv _⟩

/-! ### C21, C22 -/

/-- C21: `twist = jacobian · gvel` for every body. -/
theorem C21_twist {B : Type} {n : ℕ} (ν : Fin n → ℝ) (F : Forest Link B)
    (h : ∀ l ∈ F.links, Consistent ν l) : ∀ x ∈ worldDynamic n F, x.2.twist = x.2.jac *ᵥ ν := by
  intro x hx
  rw [worldDynamic, updateDynamic_eq] at hx
  obtain ⟨y, hy, rfl⟩ := List.mem_map.mp hx
  exact foldl_twist ν y.2 _ (by simp [groundDyn]) (fun l hl => h l (mem_links_of_mem_paths hy hl))
/-- C21 (hypotheses are met): library joints whose `gvel` is their slice of the world's `gvel` are consistent. -/
theorem C21_library_consistent {n : ℕ} (ν : Fin n → ℝ) (k : LinKind) (q : Fin k.ndof → ℝ) (start : ℕ)
    (H b0 b1 : Mat4) (h : start + k.ndof ≤ n) (h6 : start + 6 ≤ n) :
    Consistent ν ⟨k.ndof, start, k.val q (slice ν start k.ndof h), b0, b1⟩ ∧
    Consistent ν ⟨6, start, freeVal H (slice ν start 6 h6), b0, b1⟩ ∧
    Consistent ν ⟨0, start, fixedVal, b0, b1⟩ := by
  refine ⟨⟨h, rfl⟩, ⟨h6, ?_⟩, ⟨?_, ?_⟩⟩
  · simp [freeVal]
  · simp only; omega
  · simp [fixedVal]

/-- C22: for every body, the columns of `jacobian` and `djacobian` outside the dof ranges of the joints on its path
from the ground vanish. -/
theorem C22_columns {B : Type} (n : ℕ) (F : Forest Link B) :
    List.Forall₂ (fun (x : B × List Link) (y : B × BodyDyn n) => x.1 = y.1 ∧
      ∀ c : Fin n, (∀ l ∈ x.2, c.val < l.start ∨ l.start + l.k ≤ c.val) →
        ∀ i, y.2.jac i c = 0 ∧ y.2.djac i c = 0) F.paths (worldDynamic n F) := by
  rw [worldDynamic, updateDynamic_eq, List.forall₂_map_right_iff, List.forall₂_same]
  intro x _
  refine ⟨rfl, fun c hc i => ?_⟩
  exact foldl_cols c x.2 _ (by simp [groundDyn]) hc i
/-- C22: the ground's are zero. -/
theorem C22_ground (n : ℕ) : (groundDyn n).jac = 0 ∧ (groundDyn n).djac = 0 ∧ (groundDyn n).twist = 0 ∧
    (groundDyn n).pose = 1 := ⟨rfl, rfl, rfl, rfl⟩

/-! ### C23, C24 -/

lemma worldDynamic_treeAt {B : Type} (n : ℕ) (F : Forest LinkT B) (t : ℝ) :
    worldDynamic n (treeAt F t) = F.paths.map fun x => (x.1, dynAt n x.2 t) := by
  rw [worldDynamic, updateDynamic_eq, treeAt, paths_map, List.map_map]
  rfl

/-- C24: along any motion of any tree in which the joints move with the twists they report (C17: all library joints
do), the pose of every body moves with the body's twist. -/
theorem C24_twist_is_velocity {B : Type} (n : ℕ) (F : Forest LinkT B) (t : ℝ)
    (hv : ∀ l ∈ F.links, ValidLink (l.at t)) (hm : ∀ l ∈ F.links, l.Moving t)
    (i : ℕ) (hi : i < F.paths.length) :
    ∃ D : ℝ → BodyDyn n, (∀ s, (worldDynamic n (treeAt F s))[i]? = some (F.paths[i].1, D s)) ∧
      HasTwist (fun s => (D s).pose) (D t).twist t := by
  refine ⟨fun s => dynAt n F.paths[i].2 s, fun s => ?_, ?_⟩
  · rw [worldDynamic_treeAt]; simp [hi]
  · have hmem := List.getElem_mem hi
    exact dynAt_hasTwist (fun l hl => hv l (mem_links_of_mem_paths hmem hl))
      (fun l hl => hm l (mem_links_of_mem_paths hmem hl))

/-- C23, proved part: along any motion of any tree, `d/dt jacobian = djacobian` for every body such that each joint on
its path either has only joints without degrees of freedom above it, or has a twist invariant under its own
displacement.  Missing for the full claim: multi-axis joints below moving bodies, for which it is false
(`C23_false`). -/
theorem C23_partial {B : Type} (n : ℕ) (F : Forest LinkT B) (t : ℝ)
    (hv : ∀ s, ∀ l ∈ F.links, ValidLink (l.at s)) (hm : ∀ l ∈ F.links, l.Moving t)
    (hj : ∀ l ∈ F.links, l.MovingJac t) (i : ℕ) (hi : i < F.paths.length)
    (hok : ∀ pre l post, F.paths[i].2 = pre ++ l :: post → l.OwnInvariant t ∨ ∀ m ∈ pre, m.k = 0) :
    ∃ D : ℝ → BodyDyn n, (∀ s, (worldDynamic n (treeAt F s))[i]? = some (F.paths[i].1, D s)) ∧
      HasDeriv (fun s => (D s).jac) (D t).djac t ∧
      ∀ (ν : ℝ → Fin n → ℝ) (ν' : Fin n → ℝ), HasDerivV ν ν' t →
        HasDerivV (fun s => (D s).jac *ᵥ ν s) ((D t).djac *ᵥ ν t + (D t).jac *ᵥ ν') t := by
  have hmem := List.getElem_mem hi
  have key := dynAt_hasDeriv_jac (n := n) (fun s l hl => hv s l (mem_links_of_mem_paths hmem hl))
      (fun l hl => hm l (mem_links_of_mem_paths hmem hl))
      (fun l hl => hj l (mem_links_of_mem_paths hmem hl)) hok
  refine ⟨fun s => dynAt n F.paths[i].2 s, fun s => ?_, key, fun ν ν' hν => key.mulVec hν⟩
  rw [worldDynamic_treeAt]; simp [hi]

/-- A link made of a library joint with one axis (`Rx,Ry,Rz,Tx,Ty,Tz`), of a `TxTyTzJoint` or of a `FixedJoint`, between
rigid frames, moving along a differentiable path. -/
def OneAxisLink (l : LinkT) (t : ℝ) : Prop :=
  (∃ (k : LinKind) (q q' : ℝ → Fin k.ndof → ℝ) (start : ℕ) (b0 b1 : Mat4),
    k ∉ [LinKind.RzRyRx, .RzRy, .RzRx, .RyRx] ∧ IsRigid b0 ∧ IsRigid b1 ∧ HasDerivV q (q' t) t ∧
    l = linLink k q q' start b0 b1) ∨
  (∃ (start : ℕ) (b0 b1 : Mat4), IsRigid b0 ∧ IsRigid b1 ∧ l = fixedLink start b0 b1)

/-- C23 for every tree, of any depth and branching, built from one-axis, `TxTyTz` and fixed library joints. -/
theorem C23_oneaxis_partial {B : Type} (n : ℕ) (F : Forest LinkT B) (t : ℝ)
    (h : ∀ l ∈ F.links, OneAxisLink l t) (i : ℕ) (hi : i < F.paths.length) :
    ∃ D : ℝ → BodyDyn n, (∀ s, (worldDynamic n (treeAt F s))[i]? = some (F.paths[i].1, D s)) ∧
      HasTwist (fun s => (D s).pose) (D t).twist t ∧ HasDeriv (fun s => (D s).jac) (D t).djac t := by
  have hv : ∀ s, ∀ l ∈ F.links, ValidLink (l.at s) := by
    intro s l hl
    rcases h l hl with ⟨k, q, q', st, b0, b1, _, h0, h1, _, rfl⟩ | ⟨st, b0, b1, h0, h1, rfl⟩
    · exact (C20_library_valid k q q' st h0 h1 s (H := fun _ => 1) isRigid_one (fun _ => 0)).1
    · exact (C20_library_valid .Rx (fun _ _ => 0) (fun _ _ => 0) st h0 h1 s (H := fun _ => 1) isRigid_one
        (fun _ => 0)).2.2
  have z : HasDerivV (fun _ : ℝ => fun _ : Fin 1 => (0:ℝ)) (fun _ => 0) t := fun _ => hasDerivAt_const t 0
  have hm : ∀ l ∈ F.links, l.Moving t ∧ l.MovingJac t ∧ l.OwnInvariant t := by
    intro l hl
    rcases h l hl with ⟨k, q, q', st, b0, b1, hk, h0, h1, hq, rfl⟩ | ⟨st, b0, b1, h0, h1, rfl⟩
    · exact ⟨(C24_library_moving k q q' st b0 b1 t hq (H := fun _ => 1) (T := fun _ => 0) (HasTwist.const t)).1,
        (C23_library_movingJac k q q' st b0 b1 t hq (fun _ => 1) (fun _ => 0)).1,
        (C23_library_ownInvariant k hk q q' st t).1⟩
    · exact ⟨HasTwist.const t, HasDeriv.const _ t, (C23_library_ownInvariant .Rx (by decide) (fun _ _ => 0)
        (fun _ _ => 0) st t).2⟩
  have hmem := List.getElem_mem hi
  refine ⟨fun s => dynAt n F.paths[i].2 s, fun s => ?_, ?_, ?_⟩
  · rw [worldDynamic_treeAt]; simp [hi]
  · exact dynAt_hasTwist (fun l hl => hv t l (mem_links_of_mem_paths hmem hl))
      (fun l hl => (hm l (mem_links_of_mem_paths hmem hl)).1)
  · apply dynAt_hasDeriv_jac (fun s l hl => hv s l (mem_links_of_mem_paths hmem hl))
      (fun l hl => (hm l (mem_links_of_mem_paths hmem hl)).1)
      (fun l hl => (hm l (mem_links_of_mem_paths hmem hl)).2.1)
    intro pre l post e
    exact Or.inl (hm l (mem_links_of_mem_paths hmem (by rw [e]; simp))).2.2

/-! ### C25 -/

/-- C25: a sub-frame with constant, rigid `bpose` is the rigidly attached frame: pose product, twist = jacobian·gvel,
pose moves with the twist, and its djacobian is the derivative of its jacobian whenever the body's is. -/
theorem C25_subframe {n : ℕ} (D : ℝ → BodyDyn n) (t : ℝ) {bpose : Mat4} (hb : IsRigid bpose) :
    (∀ s, (subFrame (D s) bpose).pose = (D s).pose * bpose) ∧
    (∀ ν : Fin n → ℝ, (D t).twist = (D t).jac *ᵥ ν →
      (subFrame (D t) bpose).twist = (subFrame (D t) bpose).jac *ᵥ ν) ∧
    (IsRigid (D t).pose → IsRigid (subFrame (D t) bpose).pose) ∧
    (HasTwist (fun s => (D s).pose) (D t).twist t →
      HasTwist (fun s => (subFrame (D s) bpose).pose) (subFrame (D t) bpose).twist t) ∧
    (HasDeriv (fun s => (D s).jac) (D t).djac t →
      HasDeriv (fun s => (subFrame (D s) bpose).jac) (subFrame (D t) bpose).djac t) := by
  refine ⟨fun s => rfl, fun ν h => ?_, fun h => h.mul hb, fun h => ?_, fun h => ?_⟩
  · simp only [subFrame, h, Matrix.mulVec_mulVec]
  · have := HasTwist.mul (K := fun _ => bpose) hb h (HasTwist.const t)
    refine this.congr ?_
    simp [subFrame, iadjointBody]
  · have := (HasDeriv.const (iadjointBody bpose) t).mul h
    refine this.congr ?_
    simp [subFrame]

end Arboris
