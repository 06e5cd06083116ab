import Verif.Props.MatlabConvert
import Verif.Props.Human36

/-!
# C115: the human model, made ready for Matlab
-/

namespace Arboris
open Graph Spec Build Matlab

lemma node_append_right {F F' G : Forest (FrameRef × ℕ × FrameRef) ℕ} {l b} (h : Node F' l b G) : Node (F.append F') l b G := by
  induction F with
  | nil => exact h
  | cons x bx ch sib _ ih2 => exact .right ih2

/-- what hangs from the lower trunk: see `Spec.skeleton` -/
def trunkTree (nb nj ns : ℕ) : Forest (FrameRef × ℕ × FrameRef) ℕ :=
  let n := hnode nb nj ns
  (n 1 (n 2 (n 3 .nil .nil) .nil)
    (n 4 (n 5 (n 6 .nil .nil) .nil)
    (n 7
      (n 8 (n 9 (n 10 (n 11 .nil .nil) .nil) .nil)
      (n 12 (n 13 (n 14 (n 15 .nil .nil) .nil) .nil)
      (n 16 .nil .nil)))
      .nil)))

/-- C115.  In every world, for a human of legs of equal lengths and of nonnegative mass, `add_human36` followed by
`convert_robot` gives a human that `MatlabRobotGenerator` can write: the same lower trunk on the same free joint, and
below it 36 hinges (and 36 bodies, the 16 other segments among them), and no other joint. -/
theorem C115_human36 {S : RS} {F : Forest (FrameRef × ℕ × FrameRef) ℕ} (hg : Good S F) {c : Conf} (hc : 0 ≤ c.base_mass) {lim con : ℕ}
    (hl : 3 * depth F + 3 ≤ lim) (h6 : 21 ≤ lim)
    (height : ℝ) {mass : ℝ} (hm : 0 ≤ mass) (anat : Option AnatLengths) (pre : String) {L : AnatLengths} (hL : L = anat.getD (anatLengths height))
    (hlegs : L.yfootL + L.ytibiaL + L.yfemurL = L.yfootR + L.ytibiaR + L.yfemurR) :
    ∃ S' G', Runs (do
        addHuman36 lim height mass anat pre
        convertRobot c lim con S.nj) S () S' ∧
      IsMatlabRobot S' S.w.ground (.sub S.ns, S.nj, .body S.nb) S.nb G' ∧ Keeps S S' ∧ G'.links.length = 36 ∧ (∀ k < 16, S.nb + 1 + k ∈ G'.bodies) := by
  obtain ⟨S1, r1, g1, k1, hh⟩ := C72_build hg (lim := lim) (by omega) (by omega) height hm anat pre hL hlegs
  have hn : Node (F.append (skeleton S.nb S.nj S.ns)) (.sub S.ns, S.nj, .body S.nb) S.nb (trunkTree S.nb S.nj S.ns) :=
    node_append_right (.here ..)
  have hat : ∀ k (hk : k < 17), S1.jattr (S.nj + k) = ((humanLinks L)[k]'hk).2.2.1 := fun k hk => (hh.links k hk hk).joint
  have hlk : (trunkTree S.nb S.nj S.ns).links = (List.range' 1 16).map fun k => (FrameRef.sub (S.ns + k), S.nj + k, FrameRef.body (S.nb + k)) := rfl
  have hroot : S1.o.bodyOf (.sub S.ns) = S1.w.ground := by
    have := (hh.links 0 (show 0 < 17 by norm_num) (show 0 < 17 by norm_num)).onBody
    rw [k1.ground]
    exact this
  obtain ⟨S2, G', r2, hR, k2, -, -, hb, hlen, -⟩ := C115_ready (con := con) g1 hn hroot hc
    (show 3 * depth (F.append (skeleton S.nb S.nj S.ns)) + 3 ≤ lim by rw [depth_append, depth_skeleton]; omega)
    ⟨1, 0, hat 0 (by norm_num)⟩ (by
      intro l' hl'
      rw [hlk, List.mem_map] at hl'
      obtain ⟨k, hk, rfl⟩ := hl'
      have hk' := List.mem_range'_1.mp hk
      simp only
      rw [hat k (by omega)]
      obtain ⟨h1, h2⟩ := hk'
      interval_cases k <;> first | exact .inl rfl | exact .inr rfl)
  rw [k1.ground] at hR
  refine ⟨S2, G', r1.bind r2, hR, k1.trans k2, ?_, fun k hk => hb _ ?_⟩
  · rw [hlen, hlk, List.map_map]
    rw [List.map_congr_left (g := fun k => segmentDofs.getD k 0) (by
      intro k hk
      have hk' := List.mem_range'_1.mp hk
      simp only [Function.comp_apply]
      rw [hat k (by omega)]
      obtain ⟨h1, h2⟩ := hk'
      interval_cases k <;> rfl)]
    rfl
  · have : (trunkTree S.nb S.nj S.ns).bodies = (List.range' 1 16).map fun k => S.nb + k := rfl
    rw [this, List.mem_map]
    exact ⟨k + 1, List.mem_range'_1.mpr (by omega), by omega⟩

/-- for instance (the first example of the docstring of `MatlabConverter`): a human of 1.741 m and 73 kg in a new world -/
example : ∃ S' G', Runs (do
        addHuman36 1000 1.741 73 none ""
        convertRobot {} 1000 0 0) RS.new () S' ∧
      IsMatlabRobot S' 0 (.sub 0, 0, .body 1) 1 G' ∧ G'.links.length = 36 := by
  obtain ⟨S', G', r, h, -, h36, -⟩ := C115_human36 good_new (c := {}) (by norm_num) (lim := 1000) (con := 0) (by simp [depth]) (by norm_num) 1.741 (mass := 73) (by norm_num)
    none "" rfl (by simp [anatLengths])
  exact ⟨S', G', r, h, h36⟩

end Arboris
