import Verif.Model.MatlabSim
import Verif.Props.MatlabRefused
import Verif.Proofs.Build

/-!
# C114: simulations written for Matlab by `MatlabSimulationGenerator`
-/

namespace Arboris
open Graph Build Spec Matlab

/-- the `n` times from `t0` by steps of `dt` -/
noncomputable def Spec.evenly (t0 dt : ℝ) (n : ℕ) : List ℝ := (List.range n).map fun i : ℕ => t0 + i * dt

lemma evenly_length (t0 dt : ℝ) (n : ℕ) : (evenly t0 dt n).length = n := by simp [evenly]

lemma evenly_cons (t0 dt : ℝ) (n : ℕ) : evenly t0 dt (n + 2) = t0 :: (t0 + dt) :: (List.range n).map fun i : ℕ => t0 + ((i + 2 : ℕ) : ℝ) * dt := by
  unfold evenly
  rw [List.range_succ_eq_map, List.range_succ_eq_map]
  simp [List.map_map, Function.comp_def]
  intro a _
  left
  norm_num [add_assoc]

lemma evenly_last (t0 dt : ℝ) (n : ℕ) : (evenly t0 dt (n + 1)).getLastD 0 = t0 + n * dt := by
  unfold evenly
  rw [List.range_succ, List.map_append]
  simp [List.getLastD_eq_getLast?]

lemma readTimeline_evenly {t0 dt : ℝ} (h : dt ≠ 0) {n : ℕ} (hn : 2 ≤ n) :
    readTimeline (evenly t0 dt n) = .ok (t0, t0 + (n - 1) * dt - dt / 2, dt) := by
  obtain ⟨n, rfl⟩ : ∃ k, n = k + 2 := ⟨n - 2, by omega⟩
  have hl := evenly_last t0 dt (n + 1)
  have hlen : ⌈(t0 + ((n + 1 : ℕ) : ℝ) * dt + dt - t0) / dt⌉.toNat = n + 2 := by
    have : (t0 + ((n + 1 : ℕ) : ℝ) * dt + dt - t0) / dt = ((n + 2 : ℕ) : ℝ) := by
      field_simp
      push_cast
      ring
    rw [this, Int.ceil_natCast, Int.toNat_natCast]
  have hc := evenly_cons t0 dt n
  have hr : ((List.range (n + 2)).map fun i : ℕ => t0 + i * dt) = evenly t0 dt (n + 2) := rfl
  generalize ((List.range n).map fun i : ℕ => t0 + ((i + 2 : ℕ) : ℝ) * dt) = l at hc
  rw [hc] at hl hr ⊢
  have hdt : t0 + dt - t0 = dt := by ring
  simp only [readTimeline, hl, hdt, arange, if_neg h, hlen, hr, equalAll, if_true, decide_true]
  congr 2
  push_cast
  ring_nf

/-- C114.  The times are accepted exactly when there are at least two, evenly spaced (forward or backward), and then the
start and the step written are theirs, and the end is half a step before the last. -/
theorem C114_times (timeline : List ℝ) (a e d : ℝ) :
    readTimeline timeline = .ok (a, e, d) ↔
      d ≠ 0 ∧ 2 ≤ timeline.length ∧ timeline = evenly a d timeline.length ∧ e = a + (timeline.length - 1) * d - d / 2 := by
  constructor
  · intro h
    match timeline, h with
    | [], h => simp [readTimeline] at h
    | [_], h => simp [readTimeline] at h
    | t0 :: t1 :: l, h =>
      simp only [readTimeline] at h
      by_cases hd : t1 - t0 = 0
      · simp [arange, hd] at h
      simp only [arange, if_neg hd] at h
      generalize hT : t0 :: t1 :: l = T at h
      generalize hN : ⌈(T.getLastD 0 + (t1 - t0) - t0) / (t1 - t0)⌉.toNat = N at h
      rw [show ((List.range N).map fun i : ℕ => t0 + i * (t1 - t0)) = evenly t0 (t1 - t0) N from rfl] at h
      have hlen : T.length = l.length + 2 := by rw [← hT]; rfl
      by_cases h1 : N = T.length
      · by_cases h2 : evenly t0 (t1 - t0) N = T
        · have hok := readTimeline_evenly (t0 := t0) hd (n := T.length) (by omega)
          rw [h1] at h2
          simp only [equalAll, evenly_length, h1, if_true, h2, decide_true, Except.ok.injEq, Prod.mk.injEq] at h
          obtain ⟨rfl, rfl, rfl⟩ := h
          refine ⟨hd, by omega, h2.symm, ?_⟩
          have hl := evenly_last t0 (t1 - t0) (l.length + 1)
          rw [show l.length + 1 + 1 = T.length by omega, h2] at hl
          rw [hl, hlen]
          push_cast
          ring
        · simp [equalAll, evenly_length, h1, show evenly t0 (t1 - t0) T.length ≠ T from h1 ▸ h2] at h
      · by_cases h3 : N = 1
        · have : ¬ ∀ x ∈ T, evenly t0 (t1 - t0) N = [x] := by
            intro hx
            have e0 := hx t0 (by rw [← hT]; simp)
            have e1 := hx t1 (by rw [← hT]; simp)
            rw [e0] at e1
            simp only [List.cons.injEq, and_true] at e1
            exact hd (by rw [e1]; ring)
          simp only [equalAll, evenly_length, if_neg h1, if_pos h3, decide_eq_false this] at h
          cases h
        · simp [equalAll, evenly_length, h1, h3, show T.length ≠ 1 by omega] at h
  · rintro ⟨h1, h2, h3, h4⟩
    rw [h3, readTimeline_evenly h1 h2, h4]

/-- C114.  With these numbers, the times `t_start:dt:t_end` of Matlab are those of the timeline but the last: those at
which `simulate` calls the observers. -/
theorem C114_steps {timeline : List ℝ} {a e d : ℝ} (h : readTimeline timeline = .ok (a, e, d)) (hd : 0 < d) (i : ℕ) :
    (a + i * d ≤ e ↔ i < timeline.length - 1) ∧ (i < timeline.length - 1 → timeline[i]? = some (a + i * d)) := by
  obtain ⟨-, h2, h3, rfl⟩ := (C114_times timeline a e d).mp h
  generalize timeline.length = n at h2 h3
  obtain ⟨m, rfl⟩ : ∃ k, n = k + 1 := ⟨n - 1, by omega⟩
  constructor
  · rw [Nat.add_sub_cancel]
    constructor
    · intro h
      by_contra hi
      have : (m : ℝ) * d ≤ i * d := mul_le_mul_of_nonneg_right (by exact_mod_cast not_lt.mp hi) hd.le
      push_cast at h
      linarith
    · intro hi
      have : ((i : ℝ) + 1) * d ≤ m * d := mul_le_mul_of_nonneg_right (by exact_mod_cast hi) hd.le
      push_cast
      linarith
  · intro hi
    rw [h3]
    unfold evenly
    rw [List.getElem?_map, List.getElem?_range (by omega)]
    rfl

lemma readGravity_iff (weight : ℕ → Option ℝ) : ∀ (l : List ℕ) (g0 g : ℝ), readGravity weight l g0 = .ok g ↔
    (l = [] ∧ g = g0) ∨ (l ≠ [] ∧ g0 = 0 ∧ (∀ a ∈ l, (weight a).isSome) ∧ (∀ a ∈ l.dropLast, weight a = some 0) ∧ g = (l.map fun a => (weight a).getD 0).sum)
  | [], g0, g => by
    simp only [readGravity, Except.ok.injEq, true_and, ne_eq, not_true_eq_false, false_and, or_false]
    exact eq_comm
  | a :: l, g0, g => by
    cases hw : weight a with
    | none => simp [readGravity, hw]
    | some x =>
      by_cases h0 : g0 = 0
      · simp only [readGravity, hw, h0, ne_eq, not_true_eq_false, if_false]
        rw [readGravity_iff weight l x g]
        cases l with
        | nil => simp [hw]
        | cons b l =>
          simp only [reduceCtorEq, false_and, false_or, ne_eq, not_false_eq_true, true_and, List.dropLast_cons₂, List.forall_mem_cons, hw, Option.isSome_some,
            Option.some.injEq, List.map_cons, List.sum_cons, Option.getD_some]
          constructor
          · rintro ⟨rfl, h1, h2, rfl⟩
            exact ⟨h1, ⟨rfl, h2⟩, by rw [zero_add]⟩
          · rintro ⟨h1, ⟨rfl, h2⟩, rfl⟩
            exact ⟨rfl, h1, h2, by rw [zero_add]⟩
      · simp [readGravity, hw, h0]

/-- C114.  The gravity: the controllers are accepted exactly when all are `WeightController`s, of which only the last may
have a gravity; what is written is the sum of their gravities. -/
theorem C114_gravity (weight : ℕ → Option ℝ) (l : List ℕ) (g : ℝ) : readGravity weight l 0 = .ok g ↔
    (∀ a ∈ l, (weight a).isSome) ∧ (∀ a ∈ l.dropLast, weight a = some 0) ∧ g = (l.map fun a => (weight a).getD 0).sum := by
  rw [readGravity_iff]
  cases l with
  | nil => simp
  | cons a l => simp

/-- the conditions on times and gravity -/
structure Spec.SimOf (S : RS) (weight : ℕ → Option ℝ) (timeline : List ℝ) (t0 dt : ℝ) (root : ℕ) (g : ℝ) : Prop where
  step : dt ≠ 0
  two : 2 ≤ timeline.length
  even : timeline = evenly t0 dt timeline.length
  alone : (S.w.body S.w.ground).children = [root]
  noConstraint : S.w.constraints = []
  weights : ∀ a ∈ S.w.controllers, (weight a).isSome
  one : ∀ a ∈ S.w.controllers.dropLast, weight a = some 0
  sum : g = (S.w.controllers.map fun a => (weight a).getD 0).sum

/-- the text of the function `simulate` -/
noncomputable def Spec.simItem (up : Vec3) (timeline : List ℝ) (t0 dt g : ℝ) (name : String) : Item :=
  .sim t0 (t0 + (timeline.length - 1) * dt - dt / 2) dt [g * up 0, g * up 1, g * up 2, 0, 0, 0] name

lemma generate_run {S : RS} {weight : ℕ → Option ℝ} {timeline : List ℝ} {t0 dt g : ℝ} {root : ℕ} (h : SimOf S weight timeline t0 dt root g) (lim : ℕ) (up : Vec3)
    (name : String) (s : St) :
    generateSimulation S lim up weight timeline name s = makeRobot S lim root "robot" ⟨s.out ++ [simItem up timeline t0 dt g name], [], []⟩ := by
  have h1 := (C114_times timeline t0 _ dt).mpr ⟨h.step, h.two, h.even, rfl⟩
  have h2 := (C114_gravity weight S.w.controllers g).mpr ⟨h.weights, h.one, h.sum⟩
  unfold generateSimulation
  simp only [h1, h.alone, h.noConstraint, List.length_nil, gt_iff_lt, lt_irrefl, if_false, h2]
  rfl

/-- C114.  What is accepted: if `generate_simulation` returns, the times are evenly spaced, the ground has a single child
joint, that is free, there is no constraint and no controller but weights, and the text is the function `simulate`,
with these times and the gravity, and then the robot, without warning. -/
theorem C114_written {S : RS} {lim : ℕ} {up : Vec3} {weight : ℕ → Option ℝ} {timeline : List ℝ} {name : String} {s s' : St}
    (h : generateSimulation S lim up weight timeline name s = .ok () s') :
    ∃ t0 dt root g new, SimOf S weight timeline t0 dt root g ∧ (∃ H T, S.jattr root = .free H T) ∧
      s'.out = s.out ++ simItem up timeline t0 dt g name :: new ∧ Item.mad ∉ new := by
  have h0 := h
  unfold generateSimulation at h
  cases h1 : readTimeline timeline with
  | error e => rw [h1] at h; cases h
  | ok x =>
    obtain ⟨t0, e, dt⟩ := x
    rw [h1] at h
    simp only at h
    obtain ⟨q1, q2, q3, rfl⟩ := (C114_times timeline t0 e dt).mp h1
    match hc : (S.w.body S.w.ground).children with
    | [] => rw [hc] at h; cases h
    | _ :: _ :: _ => rw [hc] at h; cases h
    | [root] =>
      rw [hc] at h
      simp only at h
      by_cases hk : S.w.constraints.length > 0
      · rw [if_pos hk] at h; cases h
      rw [if_neg hk] at h
      cases hr : readGravity weight S.w.controllers 0 with
      | error e => rw [hr] at h; cases h
      | ok g =>
        obtain ⟨p1, p2, p3⟩ := (C114_gravity weight S.w.controllers g).mp hr
        have hS : SimOf S weight timeline t0 dt root g := ⟨q1, q2, q3, hc, List.length_eq_zero_iff.mp (by omega), p1, p2, p3⟩
        rw [generate_run hS] at h0
        have hm := C111_marked S lim root "robot" ⟨s.out ++ [simItem up timeline t0 dt g name], [], []⟩
        rw [h0] at hm
        obtain ⟨new, e1, e2⟩ := hm
        refine ⟨t0, dt, root, g, new, hS, ?_, by rw [e1]; simp, e2⟩
        cases hj : S.jattr root with
        | free H T => exact ⟨H, T, rfl⟩
        | lin a b d => unfold makeRobot at h0; rw [hj] at h0; cases h0
        | fixed => unfold makeRobot at h0; rw [hj] at h0; cases h0

/-- C114.  And a robot for Matlab, alone in a world without constraints, with such times and weights, is written; read back,
the text rebuilds the robot. -/
theorem C114_writes {S : RS} {l : FrameRef × ℕ × FrameRef} {b : ℕ} {ch : Forest (FrameRef × ℕ × FrameRef) ℕ} (hR : IsMatlabRobot S S.w.ground l b ch)
    (hch : ch ≠ .nil) {lim : ℕ} (hl : depth ch + 1 < lim)
    (hs : ∀ v ∈ S.w.shapes, S.o.bodyOf (S.o.shapeFrame v) ∈ b :: ch.bodies ∧ ¬ isPlane (S.geo v))
    {weight : ℕ → Option ℝ} {timeline : List ℝ} {t0 dt g : ℝ} (h : SimOf S weight timeline t0 dt l.2.1 g) (up : Vec3) (name : String) (s : St) :
    ∃ s' new place, generateSimulation S lim up weight timeline name s = .ok () s' ∧ s'.out = s.out ++ simItem up timeline t0 dt g name :: new ∧
      Set.InjOn place {x | x ∈ b :: ch.bodies} ∧
      mat2py (exec new) = (linksBelow S.w.ground (.cons l b ch .nil)).map (asCall S S.w.ground place) := by
  obtain ⟨s', new, place, h1, h2, h3, h4⟩ := C111_roundtrip hR hch hl hs "robot" (s.out ++ [simItem up timeline t0 dt g name])
  exact ⟨s', new, place, (generate_run h lim up name s).trans h1, by rw [h2]; simp, h3, h4⟩

/-- C114 is about, for instance, the robot of `exRobot` and three times, falling by a single weight -/
example (s : St) : ∃ s' new place, generateSimulation { exRS with w := { exWorld with shapes := [], controllers := [4] } } 9 ![0, 1, 0] (fun _ => some (-9.81)) [1, 3, 5] "fall" s = .ok () s' ∧
    s'.out = s.out ++ simItem ![0, 1, 0] [1, 3, 5] 1 2 (-9.81) "fall" :: new ∧ Set.InjOn place {x | x ∈ 1 :: exTree.bodies} ∧
    mat2py (exec new) = (linksBelow 0 (.cons (.body 0, 0, .body 1) 1 exTree .nil)).map
      (asCall { exRS with w := { exWorld with shapes := [], controllers := [4] } } 0 place) := by
  have hR := exRobot []
  refine C114_writes (S := { exRS with w := { exWorld with shapes := [], controllers := [4] } }) (l := (.body 0, 0, .body 1)) ⟨hR.unfolds.congr (fun _ _ => rfl) (fun _ _ => rfl) (fun _ _ => ⟨rfl, rfl⟩), hR.bodies_nodup, hR.root, hR.hinges⟩
    (by simp [exTree]) (by decide) (by simp) ⟨by norm_num, by simp, ?_, rfl, rfl, by simp, by simp, by simp⟩ _ _ s
  simp only [evenly, List.length_cons, List.length_nil]
  norm_num [List.range_succ]

/-! ### what goes wrong -/

/-- The claim: times that are not evenly spaced are refused with the error of the generator. -/
def C114_times_Claim : Prop := ∀ timeline : List ℝ, 2 ≤ timeline.length → (∀ t0 dt, timeline ≠ evenly t0 dt timeline.length) →
  readTimeline timeline = .error .runtimeError

/-- C114: it is false: of the times 0, 1, 3, that `arange` would make four of, comes an `AttributeError`. -/
theorem C114_times_false : ¬ C114_times_Claim ∧ readTimeline [0, 1, 3] = .error .attributeError := by
  have key : readTimeline [0, 1, 3] = .error .attributeError := by
    have hc : ⌈(3 + (1 - 0) - 0 : ℝ) / (1 - 0)⌉.toNat = 4 := by
      rw [show ((3 + (1 - 0) - 0 : ℝ) / (1 - 0)) = ((4 : ℕ) : ℝ) by norm_num, Int.ceil_natCast, Int.toNat_natCast]
    have hne : ¬ ((1 : ℝ) - 0 = 0) := by norm_num
    simp only [readTimeline, List.getLastD_cons, List.getLastD_nil, arange, if_neg hne, hc]
    simp [equalAll]
  refine ⟨fun h => ?_, key⟩
  have := h [0, 1, 3] (by simp) (by
    intro t0 dt e
    simp only [evenly, List.length_cons, List.length_nil] at e
    norm_num [List.range_succ] at e
    obtain ⟨h1, h2, h3⟩ := e
    rw [← h1] at h2 h3
    linarith)
  rw [key] at this
  cases this

/-- The claim: when the generator raises, it has written nothing, or a warning at the end. -/
def C114_marked_Claim : Prop := ∀ (S : RS) (lim : ℕ) (up : Vec3) (weight : ℕ → Option ℝ) (timeline : List ℝ) (name : String) (s : St),
  match generateSimulation S lim up weight timeline name s with
  | .ok _ _ => True
  | .error _ s' => s'.out = s.out ∨ s'.out.getLast? = some .mad

/-- C114: it is false: when the root is not free, the function `simulate` stays in the file, without warning nor robot. -/
theorem C114_marked_false : ¬ C114_marked_Claim ∧
    ∀ {S : RS} {weight : ℕ → Option ℝ} {timeline : List ℝ} {t0 dt g : ℝ} {root : ℕ}, SimOf S weight timeline t0 dt root g → (∀ H T, S.jattr root ≠ .free H T) →
      ∀ (lim : ℕ) (up : Vec3) (name : String) (s : St), ∃ s', generateSimulation S lim up weight timeline name s = .error .runtimeError s' ∧
        s'.out = s.out ++ [simItem up timeline t0 dt g name] := by
  have key : ∀ {S : RS} {weight : ℕ → Option ℝ} {timeline : List ℝ} {t0 dt g : ℝ} {root : ℕ}, SimOf S weight timeline t0 dt root g → (∀ H T, S.jattr root ≠ .free H T) →
      ∀ (lim : ℕ) (up : Vec3) (name : String) (s : St), ∃ s', generateSimulation S lim up weight timeline name s = .error .runtimeError s' ∧
        s'.out = s.out ++ [simItem up timeline t0 dt g name] := by
    intro S weight timeline t0 dt g root h hf lim up name s
    rw [generate_run h]
    unfold makeRobot
    cases hj : S.jattr root with
    | free H T => exact absurd hj (hf H T)
    | lin a b d => exact ⟨_, rfl, rfl⟩
    | fixed => exact ⟨_, rfl, rfl⟩
  refine ⟨fun hc => ?_, key⟩
  have hS : SimOf { exRS with jattr := fun _ => .fixed } (fun _ => none) [0, 1] 0 1 0 0 :=
    ⟨by norm_num, by simp, by simp [evenly, List.range_succ], rfl, rfl, by simp [exRS, exWorld], by simp [exRS, exWorld], by simp [exRS, exWorld]⟩
  obtain ⟨s', h1, h2⟩ := key hS (by simp) 9 ![0, 1, 0] "x" ⟨[], [], []⟩
  have := hc { exRS with jattr := fun _ => .fixed } 9 ![0, 1, 0] (fun _ => none) [0, 1] "x" ⟨[], [], []⟩
  rw [h1] at this
  simp only [h2] at this
  rcases this with h | h
  · simp at h
  · simp [simItem] at h

end Arboris
