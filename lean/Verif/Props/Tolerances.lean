import Verif.Props.Rigid
import Verif.Props.Mass
import Verif.Props.Replace
import Verif.Props.Dofs

/-!
# What the checks refuse, and how closely
-/

namespace Arboris
open Graph Spec Matrix

/-- C04: which matrices pass the check, exactly: those with last row `0 0 0 1` and a determinant within `1e-9` of 1; the other ones are refused by
`inv`, `adjoint` and `iadjoint`. -/
theorem C04_refused (H : Mat4) :
    (ishomogeneousmatrix H ↔ |(rot H).det - 1| ≤ 0.000000001 ∧ ∀ j, H 3 j = if j = 3 then 1 else 0) ∧
    (¬ ishomogeneousmatrix H → inv H = .error .assertion ∧ adjoint H = .error .assertion ∧ iadjoint H = .error .assertion) := by
  constructor
  · simp only [ishomogeneousmatrix, ishomogeneousmatrixTol, tol]
    have e : (1e-9 : ℝ) = 0.000000001 := by norm_num
    rw [e]
    refine and_congr_right fun _ => ?_
    constructor
    · rintro ⟨h0, h1, h2, h3⟩ j; fin_cases j <;> simp [h0, h1, h2, h3]
    · intro h; refine ⟨?_, ?_, ?_, ?_⟩
      · simpa using h 0
      · simpa using h 1
      · simpa using h 2
      · simpa using h 3
  · intro h
    refine ⟨?_, ?_, ?_⟩ <;> simp [inv, adjoint, iadjoint, assertHom, h, bind, Except.bind]

/-- A displacement with a scale factor of one millionth is refused. -/
example : inv (mkH ((1.000001 : ℝ) • 1) ![1, 2, 3]) = .error .assertion := by
  refine ((C04_refused _).2 ?_).1
  rw [(C04_refused _).1]
  rintro ⟨h, _⟩
  rw [rot_mkH, Matrix.det_smul, Matrix.det_one] at h
  rw [abs_le] at h
  norm_num at h

/-- C13: how far from symmetric an accepted mass matrix can be: relative to its entries, by one part in `10⁵` (plus `1e-8`); and its last three
diagonal entries, the mass, agree as closely. -/
theorem C13_tolerance {M : Mat6} {semi : Bool} (h : ismassmatrix M semi) :
    (∀ i j, |M i j - M j i| ≤ 0.00000001 + 0.00001 * |M j i|) ∧
    (|M 4 4 - M 3 3| ≤ 0.00000001 + 0.00001 * |M 3 3| ∧ |M 5 5 - M 3 3| ≤ 0.00000001 + 0.00001 * |M 3 3|) ∧
    |M 3 4| ≤ 0.00000001 ∧ |M 3 5| ≤ 0.00000001 ∧ |M 4 5| ≤ 0.00000001 := by
  obtain ⟨h1, h2, _⟩ := h
  have e1 : (1e-8 : ℝ) = 0.00000001 := by norm_num
  have e2 : (1e-5 : ℝ) = 0.00001 := by norm_num
  refine ⟨fun i j => ?_, ⟨?_, ?_⟩, ?_, ?_, ?_⟩
  · have := h1 i j; rw [e1, e2] at this; exact this
  · have := h2 1 1; rw [e1, e2] at this; simpa [b22] using this
  · have := h2 2 2; rw [e1, e2] at this; simpa [b22] using this
  · have := h2 0 1; rw [e1, e2] at this; simpa [b22] using this
  · have := h2 0 2; rw [e1, e2] at this; simpa [b22] using this
  · have := h2 1 2; rw [e1, e2] at this; simpa [b22] using this

/-- C30: a new world has no degree of freedom, no joint and no registered object; its only body is the ground. -/
theorem C30_empty (o : Objs) (g lim : ℕ) (hl : 0 < lim) : (World.new g).ndof = 0 ∧ iterBodies o (World.new g) lim = .ok [g] ∧
    iterJoints o (World.new g) lim = .ok [] ∧ (World.new g).subframes = [] ∧ (World.new g).shapes = [] ∧ (World.new g).constraints = [] ∧
    (World.new g).controllers = [] := by
  obtain ⟨k, rfl⟩ := Nat.exists_eq_succ_of_ne_zero hl.ne'
  refine ⟨rfl, ?_, ?_, rfl, rfl, rfl, rfl⟩
  · rfl
  · rfl

/-- C57: the number of arguments: for a joint of the world, `replace_joint` without new joint, or with a number of arguments that is neither one nor a
multiple of three, raises `RuntimeError` and changes nothing. -/
theorem C57_arity {o : Objs} {lim g : ℕ} {ops : List Op} (hh : AllowedHistory o lim (World.new g) ops)
    {w : World} (hw : w = runAll o lim (World.new g) ops) {F : Forest (FrameRef × ℕ × FrameRef) ℕ} (hF : IsTree o w F)
    {old : ℕ} (hold : old ∈ joints F) {args : List Arg} (ha : args = [] ∨ args.length ≠ 1 ∧ ¬ 3 ∣ args.length) :
    replaceJoint o w lim old args = (w, .error .runtimeError) := by
  have hI : GInv o w := hw ▸ GInv.runAll (GInv.new o g) hh
  obtain ⟨g0, g1, e0, e1, hpar⟩ := hF.unfolds.link hold
  have hkid : old ∈ (w.body (o.bodyOf g0)).children := by
    obtain ⟨f0, f1, a, b, c, d⟩ := hI.par _ _ hpar
    rw [e0] at a
    simp at a
    rwa [a]
  have hguard : replaceGuard o w old = .ok (g0, g1) := by
    unfold replaceGuard
    simp [e0, e1, hkid, hpar]
  unfold replaceJoint
  rw [hguard]
  rcases ha with rfl | ⟨h1, h2⟩
  · rfl
  · rcases args with _ | ⟨a, _ | ⟨b, l⟩⟩
    · rfl
    · simp at h1
    · have : (a :: b :: l).length % 3 ≠ 0 := fun e => h2 (Nat.dvd_of_mod_eq_zero e)
      simp only [if_pos this]

end Arboris
