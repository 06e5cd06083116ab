import Verif.Props.Hooks
import Verif.Props.DropRest

/-!
# C129: examples
-/

namespace Arboris
open Matrix Spec Mech Build Sim

noncomputable section

/-- a ball of unit inertia, and of mass matrix `M`, one metre above the ground, under the weight -/
def hookWorld (M : Mat6) (cs : List Ctl) : MWorld 6 (List Ctl) where
  tree := .cons ⟨.free (mkH 1 (![0, 0, 1] + (1 : ℝ) • ![0, 0, 1])) (tw 0 ((0 : ℝ) • (1 : Mat3)ᵀ *ᵥ ![0, 0, 1])), 0, 1, 1⟩ ⟨M, 0⟩ .nil .nil
  gvel := 0
  dyn := []
  mass := 0
  viscosity := 0
  nleffects := 0
  ctrl := ⟨0, 0, 0⟩
  cons := []
  mem := cs

lemma hook_tree (w : MWorld 6 (List Ctl)) (h : w.tree = ballTree unitBall (1, 0)) :
    Mech.dynamic w = .ok { w with dyn := [(⟨1, 0⟩, ballDyn unitBall (1, 0))], mass := 1, viscosity := 0, nleffects := 0 } := by
  have hval : ∀ l ∈ (w.tree.map MLink.link id).links, ValidLink l := by
    intro l hl
    rw [h] at hl
    simp only [ballTree, Forest.map, Forest.links, List.append_nil, List.mem_singleton] at hl
    subst hl
    refine Spec.RigidLink.valid ⟨isRigid_one, isRigid_one, fun H T h => ?_⟩
    injection h with h1 h2
    rw [← h1]
    exact isRigid_mkH unitBall.rot
  have hdyn := (C20_no_assertion 6 _ hval).2
  have hd : worldDynamic 6 (w.tree.map MLink.link id) = [(⟨1, 0⟩, ballDyn unitBall (1, 0))] := by rw [h]; exact ball_dyn unitBall (1, 0)
  obtain ⟨m1, m2, m3⟩ := ball_mass unitBall (1, 0)
  unfold Mech.dynamic
  rw [hdyn, hd]
  have e1 : worldMass [((⟨1, 0⟩ : Body), ballDyn unitBall (1, 0))] = 1 := m1
  have e2 : worldViscosity [((⟨1, 0⟩ : Body), ballDyn unitBall (1, 0))] = 0 := m2
  have e3 : worldNleffects [((⟨1, 0⟩ : Body), ballDyn unitBall (1, 0))] = 0 := m3
  simp only [e1, e2, e3]

lemma hook_rigid : ∀ x ∈ [((⟨1, 0⟩ : Body), ballDyn unitBall (1, 0))], IsRigid x.2.pose := by
  intro x hx
  rw [List.mem_singleton] at hx
  subst hx
  exact isRigid_mkH unitBall.rot

lemma hook_mass : HasMass ⟨1, 0⟩ := ⟨0, 0, by simp⟩

lemma hook_weight (γ : ℝ) (b : Body) (hb : HasMass b) : weightOf γ ![0, 0, 1] [b] [((⟨1, 0⟩ : Body), ballDyn unitBall (1, 0))] = tw 0 ![0, 0, γ] := by
  classical
  simp only [weightOf, List.zip_cons_cons, List.zip_nil_right, List.map_cons, List.map_nil, List.sum_cons, List.sum_nil, add_zero, if_pos hb, ballDyn,
    Matrix.transpose_one, Matrix.one_mulVec]
  rw [iadj_zero, rot_mkH]
  have : unitBall.R = 1 := rfl
  rw [this, Matrix.transpose_one, Matrix.one_mulVec]
  congr 1
  ext i; fin_cases i <;> simp

/-- C129, an example.  A ball of mass 1 under a `WeightController` of gravity -9.81: the script sets `gravity` to 0, then registers a second
controller; the first still pushes with -9.81, the second raises.  If it calls `world.init()` again, the first one pushes with 0, the
second with its gravity 1. -/
theorem C129_example (look : MWorld 6 Unit → Con 6 → Con 6) (dt : ℝ) : ∃ w0 w1 w2 w3 w4 w5 : MWorld 6 (List Ctl), ∃ c d c' d' : Ctl,
    hookInit ![0, 0, 1] w0 = .ok w1 ∧
    handRun ![0, 0, 1] look [.setGravity 0 0, .register (.weight 1)] w1 = .ok w2 ∧ Mech.dynamic w2 = .ok w3 ∧
    w1.mem.map Ctl.settings = [.weight (-9.81)] ∧ w3.mem.map Ctl.settings = [.weight 0, .weight 1] ∧
    w3.mem = [c, d] ∧ c.update w3 dt = .ok ⟨tw 0 ![0, 0, -9.81], 0⟩ ∧ d.update w3 dt = .error .typeError ∧
    handRun ![0, 0, 1] look [.init] w2 = .ok w4 ∧ Mech.dynamic w4 = .ok w5 ∧
    w5.mem = [c', d'] ∧ c'.update w5 dt = .ok ⟨tw 0 ![0, 0, 0], 0⟩ ∧ d'.update w5 dt = .ok ⟨tw 0 ![0, 0, 1], 0⟩ := by
  obtain ⟨w1, h1, t1, x, m1, s1⟩ : ∃ w1, hookInit ![0, 0, 1] (hookWorld 1 [.weight (-9.81) none]) = .ok w1 ∧ w1.tree = ballTree unitBall (1, 0) ∧
    ∃ x, w1.mem = [x] ∧ x.settings = .weight (-9.81) := ⟨_, rfl, rfl, _, rfl, rfl⟩
  obtain ⟨w2, h2, t2, m2⟩ : ∃ w2, handRun ![0, 0, 1] look [.setGravity 0 0, .register (.weight 1)] w1 = .ok w2 ∧ w2.tree = w1.tree ∧
    w2.mem = [x.setGravity 0, .new (.weight 1)] := ⟨_, rfl, rfl, by simp [m1]⟩
  have h3 := hook_tree w2 (t2.trans t1)
  obtain ⟨w4, h4, t4, m4⟩ : ∃ w4, handRun ![0, 0, 1] look [.init] w2 = .ok w4 ∧ w4.tree = (number 0 w2.tree).1 ∧
    ∃ y : MWorld 6 (List Ctl), w4.mem = w2.mem.map (Ctl.init ![0, 0, 1] y) := ⟨_, rfl, rfl, _, rfl⟩
  obtain ⟨y, m4⟩ := m4
  rw [t2, t1] at t4
  have h5 := hook_tree w4 t4
  have s2 : (x.setGravity 0).settings = .weight 0 := by
    cases x with
    | weight γ c => rfl
    | pd js g m => cases s1
  rw [m2] at m4
  simp only [List.map_cons, List.map_nil] at m4
  have hh4 : hookInit ![0, 0, 1] w2 = .ok w4 := h4
  obtain ⟨a1, -, a3, -⟩ := C129_hand ![0, 0, 1] look (by simp [NoInit]) h1 h2 h3 dt
  obtain ⟨b1, -, -, -⟩ := C129_hand ![0, 0, 1] look (os := []) (by simp [NoInit]) hh4 rfl h5 dt
  have bo : ∀ w : MWorld 6 (List Ctl), w.tree = ballTree unitBall (1, 0) → w.tree.bodies = [⟨1, 0⟩] := fun w h => by rw [h]; rfl
  rw [bo w1 t1] at a1
  rw [bo w4 t4] at b1
  refine ⟨_, w1, w2, _, w4, _, _, _, _, _, h1, h2, h3, by simp [m1, s1], by simp only [m2, List.map_cons, List.map_nil, s2]; rfl, m2, ?_, ?_, h4, h5, m4, ?_, ?_⟩
  · have := a1 0 (-9.81) (by simp [m1, s1]) hook_rigid
    simp only [m2, hook_weight _ _ hook_mass] at this
    exact Option.some.inj this
  · exact a3 1 _ (by simp [m1]) (by simp only [m2]; rfl)
  · have := b1 0 0 (by simp [m4, settings_init, s2]) hook_rigid
    simp only [m4, hook_weight _ _ hook_mass] at this
    exact Option.some.inj this
  · have := b1 1 1 (by rw [m4]; simp only [List.map_cons, settings_init]; rfl) hook_rigid
    simp only [m4, hook_weight _ _ hook_mass] at this
    exact Option.some.inj this

/-- C129, a trap.  A ball without mass at the `init`, whose mass is set to 1 afterwards, falls with no weight: the `WeightController` has
left it out. -/
theorem C129_massless (look : MWorld 6 Unit → Con 6 → Con 6) (γ dt : ℝ) : ∃ w0 w1 w2 w3 : MWorld 6 (List Ctl), ∃ c : Ctl,
    hookInit ![0, 0, 1] w0 = .ok w1 ∧ handRun ![0, 0, 1] look [.setMass 0 1] w1 = .ok w2 ∧ Mech.dynamic w2 = .ok w3 ∧
    w3.mem = [c] ∧ c.settings = .weight γ ∧ w3.tree.bodies.map (·.mass) = [1] ∧ w3.mass = 1 ∧ c.update w3 dt = .ok ⟨0, 0⟩ := by
  classical
  obtain ⟨w1, h1, t1, x, m1, s1⟩ : ∃ w1, hookInit ![0, 0, 1] (hookWorld 0 [.weight γ none]) = .ok w1 ∧ w1.tree = (hookWorld 0 []).tree ∧
    ∃ x, w1.mem = [x] ∧ x.settings = .weight γ := ⟨_, rfl, rfl, _, rfl, rfl⟩
  obtain ⟨w2, h2, t2, m2⟩ : ∃ w2, handRun ![0, 0, 1] look [.setMass 0 1] w1 = .ok w2 ∧
    w2.tree = (editTree (fun _ l => l) (fun a b => if a = 0 then { b with mass := 1 } else b) 0 w1.tree).1 ∧ w2.mem = [x] := ⟨_, rfl, by congr!, m1⟩
  have t3 : w2.tree = ballTree unitBall (1, 0) := by
    rw [t2, t1]
    simp only [hookWorld, editTree, if_true]
    rfl
  have h3 := hook_tree w2 t3
  obtain ⟨a1, -, -, -⟩ := C129_hand ![0, 0, 1] look (by simp [NoInit]) h1 h2 h3 dt
  refine ⟨_, w1, w2, _, _, h1, h2, h3, m2, s1, ?_, rfl, ?_⟩
  · simp only [t3]; rfl
  · have := a1 0 γ (by simp [m1, s1]) hook_rigid
    have e : weightOf γ ![0, 0, 1] w1.tree.bodies [((⟨1, 0⟩ : Body), ballDyn unitBall (1, 0))] = 0 := by
      rw [t1]
      have : ¬ HasMass ⟨0, 0⟩ := by rintro ⟨i, j, h⟩; simp at h
      simp only [hookWorld, Forest.bodies, List.nil_append, List.append_nil, weightOf, List.zip_cons_cons, List.zip_nil_right, List.map_cons, List.map_nil, List.sum_cons,
        List.sum_nil, add_zero, if_neg this]
    simp only [m2, e] at this
    exact Option.some.inj this

end
end Arboris
