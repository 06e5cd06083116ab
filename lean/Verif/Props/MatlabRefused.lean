import Verif.Props.Matlab

/-!
# C111: which robots `MatlabRobotGenerator` refuses
-/

namespace Arboris
open Graph Build Spec Matlab

lemma jtype_bad {a : JAttr} (h : hinge a = none) {br bd : ℕ} (hb : br ≠ 1 ∨ bd ≠ 1) : jtype a br bd = .error .runtimeError := by
  rcases a with ⟨k, q, dq⟩ | ⟨H, T⟩ | _
  · cases k <;> simp [hinge] at h <;> rfl
  · simp only [jtype, if_pos hb]
  · rfl

lemma addLink_bad {S : RS} {f0 f1 : FrameRef} {j br bd : ℕ} (h0 : (S.w.joint j).frame0 = some f0) (h1 : (S.w.joint j).frame1 = some f1)
    (h : hinge (S.jattr j) = none) (hb : br ≠ 1 ∨ bd ≠ 1) (s : St) :
    ∃ s', Matlab.addLink S j br bd s = .error .runtimeError s' := by
  unfold Matlab.addLink
  rw [h0, h1]
  simp only [jtype_bad h hb]
  exact ⟨_, rfl⟩

lemma entries_count (F : Forest (FrameRef × ℕ × FrameRef) ℕ) :
    (∀ p br bd, br ≤ (firstE F p br bd).2) ∧ ∀ p pp br, br ≤ (restE F p pp br).2 := by
  induction F with
  | nil => exact ⟨fun _ _ _ => le_rfl, fun _ _ _ => le_rfl⟩
  | cons l b ch sib ih1 ih2 =>
    constructor
    · intro p br bd
      simp only [firstE]
      exact (ih1.1 _ _ _).trans (ih2.2 _ _ _)
    · intro p pp br
      simp only [restE]
      exact ((Nat.le_succ br).trans (ih1.1 _ _ _)).trans (ih2.2 _ _ _)

lemma traverse_bad {S : RS} {p : ℕ} {js : List ℕ} {F : Forest (FrameRef × ℕ × FrameRef) ℕ} (hu : Unfolds S.o S.w p js F)
    (hh : ∃ l ∈ F.links, hinge (S.jattr l.2.1) = none) :
    (∀ k br bd s, depth F < k → 1 ≤ bd → 1 ≤ br → ∃ s', traverse S k js br (bd + 1) s = .error .runtimeError s') ∧
    (∀ k br pp s, depth F ≤ k → 1 ≤ br → ∃ s',
      js.foldlM (fun br j => (do
        addBranch (br + 1) pp
        Matlab.addLink S j (br + 1) 1
        addVal S j
        let ch ← kids S j
        traverse S k ch (br + 1) 2 : Gen ℕ)) br s = .error .runtimeError s') := by
  induction hu with
  | nil b => simp [Forest.links] at hh
  | @cons b j js f0 f1 ch sib h0 h1 hb hp hch hsib ih1 ih2 =>
    by_cases hj : hinge (S.jattr j) = none
    · constructor
      · intro k br bd s hk hbd hbr
        obtain ⟨k, rfl⟩ : ∃ k', k = k' + 1 := ⟨k - 1, by omega⟩
        obtain ⟨s', h'⟩ := addLink_bad h0 h1 hj (br := br) (bd := bd + 1) (.inr (by omega)) s
        unfold Matlab.traverse
        rw [bind_run, h']
        exact ⟨_, rfl⟩
      · intro k br pp s hk hbr
        rw [List.foldlM_cons, bind_run, bind_run, addBranch_run]
        simp only
        obtain ⟨s', h'⟩ := addLink_bad h0 h1 hj (br := br + 1) (bd := 1) (.inl (by omega)) { s with out := s.out ++ [.branch (br + 1) pp] }
        rw [bind_run, h']
        exact ⟨_, rfl⟩
    have hj' : (hinge (S.jattr j)).isSome := Option.isSome_iff_ne_none.mpr hj
    by_cases hc : ∃ l ∈ ch.links, hinge (S.jattr l.2.1) = none
    · have i1 := ih1 hc
      constructor
      · intro k br bd s hk hbd hbr
        obtain ⟨k, rfl⟩ : ∃ k', k = k' + 1 := ⟨k - 1, by omega⟩
        simp only [depth] at hk
        unfold Matlab.traverse
        rw [bind_run, addLink_run h0 h1 (jtype_hinge hj' _ _)]
        simp only
        rw [bind_run, addVal_run]
        simp only
        rw [bind_run, kids_run h1]
        simp only
        obtain ⟨s', h'⟩ := i1.1 k br (bd + 1) _ (by omega) (by omega) hbr
        rw [bind_run, h']
        exact ⟨_, rfl⟩
      · intro k br pp s hk hbr
        simp only [depth] at hk
        rw [List.foldlM_cons, bind_run, bind_run, addBranch_run]
        simp only
        rw [bind_run, addLink_run h0 h1 (jtype_hinge hj' _ _)]
        simp only
        rw [bind_run, addVal_run]
        simp only
        rw [bind_run, kids_run h1]
        simp only
        obtain ⟨s', h'⟩ := i1.1 k (br + 1) 1 _ (by omega) (by omega) (by omega)
        rw [h']
        exact ⟨_, rfl⟩
    · have hok : ∀ l ∈ ch.links, (hinge (S.jattr l.2.1)).isSome := fun l hl => Option.isSome_iff_ne_none.mpr fun e => hc ⟨l, hl, e⟩
      have i1 := traverse_run hch hok
      have i2 := ih2 (by
        obtain ⟨l, hl, e⟩ := hh
        simp only [Forest.links, List.cons_append, List.mem_cons, List.mem_append] at hl
        rcases hl with rfl | hl | hl
        · exact absurd e hj
        · exact absurd ⟨l, hl, e⟩ hc
        · exact ⟨l, hl, e⟩)
      constructor
      · intro k br bd s hk hbd hbr
        obtain ⟨k, rfl⟩ : ∃ k', k = k' + 1 := ⟨k - 1, by omega⟩
        simp only [depth] at hk
        unfold Matlab.traverse
        rw [bind_run, addLink_run h0 h1 (jtype_hinge hj' _ _)]
        simp only
        rw [bind_run, addVal_run]
        simp only
        rw [bind_run, kids_run h1]
        simp only
        rw [bind_run, i1.1 k br (bd + 1) _ (by omega) (by omega)]
        simp only
        exact i2.2 k _ _ _ (by omega) (hbr.trans ((entries_count ch).1 _ _ _))
      · intro k br pp s hk hbr
        simp only [depth] at hk
        rw [List.foldlM_cons, bind_run, bind_run, addBranch_run]
        simp only
        rw [bind_run, addLink_run h0 h1 (jtype_hinge hj' _ _)]
        simp only
        rw [bind_run, addVal_run]
        simp only
        rw [bind_run, kids_run h1]
        simp only
        rw [i1.1 k (br + 1) 1 _ (by omega) (by omega)]
        simp only
        exact i2.2 k _ _ _ (by omega) ((Nat.le_add_left 1 br).trans ((entries_count ch).1 _ _ _))

/-- C111.  A robot which arboris-matlab does not know is refused, whatever its shapes: if the root joint is not free, or if
some joint below is anything else than a hinge around x, y or z (a free joint, a translation, a joint of several
rotations, a fixed joint), `make_robot` raises a `GenerationError`. -/
theorem C111_refused {S : RS} {p : ℕ} {l : FrameRef × ℕ × FrameRef} {b : ℕ} {ch : Forest (FrameRef × ℕ × FrameRef) ℕ}
    (hu : Unfolds S.o S.w p [l.2.1] (.cons l b ch .nil)) {lim : ℕ} (hl : depth ch + 1 < lim) (name : String)
    (h : (∀ H T, S.jattr l.2.1 ≠ .free H T) ∨ ∃ l' ∈ ch.links, hinge (S.jattr l'.2.1) = none) (s : St) :
    ∃ s', makeRobot S lim l.2.1 name s = .error .runtimeError s' := by
  unfold makeRobot
  cases hr : S.jattr l.2.1 with
  | lin k q dq => exact ⟨_, rfl⟩
  | fixed => exact ⟨_, rfl⟩
  | free H T =>
    have h' := h.resolve_left (fun h => h H T hr)
    obtain ⟨lim, rfl⟩ : ∃ k', lim = k' + 1 := ⟨lim - 1, by omega⟩
    suffices ∃ s', body S (lim + 1) l.2.1 name s = .error .runtimeError s' by
      obtain ⟨s', h'⟩ := this
      simp only [tryCatch, tryCatchThe, MonadExceptOf.tryCatch, EStateM.tryCatch]
      rw [h']
      exact ⟨_, rfl⟩
    rcases l with ⟨f0, j, f1⟩
    cases hu with
    | cons h0 h1 hb hp hch hsib =>
      unfold body
      rw [bind_run]
      simp only [write, modify, modifyGet, MonadStateOf.modifyGet, EStateM.modifyGet]
      rw [bind_run, addBranch_run]
      simp only
      unfold Matlab.traverse
      rw [bind_run, bind_run, addLink_run h0 h1 (by simp only at hr; rw [hr]; rfl)]
      simp only
      rw [bind_run, addVal_run]
      simp only
      rw [bind_run, kids_run h1]
      simp only
      obtain ⟨s', h'⟩ := (traverse_bad hch h').1 lim 1 1 _ (by omega) le_rfl le_rfl
      rw [bind_run, h']
      exact ⟨_, rfl⟩

/-- the robot of `exRobot`, but with the hand on a free joint -/
noncomputable def exLoose : RS := { exRS with jattr := fun j => if j = 0 then .free 1 0 else if j = 3 then .free 1 0 else .lin .Rz 0 0 }

/-- C111 is about, for instance, this robot -/
example (name : String) (s : St) : ∃ s', makeRobot exLoose 9 0 name s = .error .runtimeError s' := by
  have hu : Unfolds exLoose.o exLoose.w 0 [0] (.cons (.body 0, 0, .body 1) 1 exTree .nil) := (exRobot []).unfolds
  exact C111_refused (S := exLoose) (p := 0) (l := (.body 0, 0, .body 1)) (b := 1) (ch := exTree) hu (lim := 9) (by decide) name (.inr ⟨(.body 2, 3, .body 4), by simp [exTree, Forest.links], by simp [hinge, exLoose]⟩) s

end Arboris
