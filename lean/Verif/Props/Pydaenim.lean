import Verif.Spec.Pydaenim
import Verif.Props.Daenim

/-! # C126: what `pydaenimCom` tells its viewer -/

namespace Arboris
open Spec Visu Build Log Graph Matrix

/-- the things shown by the messages: the bodies or the ends of the joints, and the moving subframes -/
def shownThings (flat : Bool) (w : LWorld) : List ℕ := (if flat then w.bodies else w.joints.map w.frame1) ++ w.moving

lemma key_named {names : ℕ → Option String} {i : ℕ} (h : (names i).isSome) : Pydaenim.key names i = (names i).getD "" := by
  obtain ⟨s, hs⟩ := Option.isSome_iff_exists.mp h
  simp [Pydaenim.key, hs]

lemma message_frames {flat : Bool} {w : LWorld} {names : ℕ → Option String} (hn : ∀ i ∈ shownThings flat w, (names i).isSome) (v : View) :
    (Pydaenim.message flat w names v).frames =
      (truth flat w names v).foldl (fun d a => PDict.set d a.1 (Daenim.entries a.2)) [] := by
  rw [truth, List.foldl_append, List.foldl_map]
  have h2 : ∀ d0 : PDict String (List ℝ), w.moving.foldl (fun d f => PDict.set d (Pydaenim.key names f) (Daenim.entries (if flat then v.pose f else v.bpose f))) d0 =
      w.moving.foldl (fun d f => PDict.set d ((names f).getD "") (Daenim.entries (if flat then v.pose f else v.bpose f))) d0 := by
    intro d0
    refine List.foldl_ext _ _ _ ?_
    intro d f hf
    rw [key_named (hn f (List.mem_append_right _ hf))]
  simp only [Pydaenim.message]
  rw [h2]
  congr 1
  cases flat with
  | true =>
    simp only [if_true, List.foldl_map]
    refine List.foldl_ext _ _ _ ?_
    intro d f hf
    rw [key_named (hn f (List.mem_append_left _ (by simpa using hf)))]
  | false =>
    simp only [Bool.false_eq_true, if_false, List.foldl_map]
    refine List.foldl_ext _ _ _ ?_
    intro d f hf
    rw [key_named (hn _ (List.mem_append_left _ (by
      simp only [Bool.false_eq_true, if_false]
      exact List.mem_map.mpr ⟨f, hf, rfl⟩)))]

lemma pset_nodup {K A : Type} [DecidableEq K] {d : PDict K A} (h : (d.map Prod.fst).Nodup) (k : K) (a : A) : ((PDict.set d k a).map Prod.fst).Nodup := by
  by_cases hk : k ∈ d.map Prod.fst
  · rw [pset_keys a hk]; exact h
  · rw [pset_new a hk, List.map_append]
    refine List.Nodup.append h (List.nodup_singleton _) ?_
    intro x hx hx'
    rw [List.map_singleton, List.mem_singleton] at hx'
    change x = k at hx'
    rw [hx'] at hx
    exact hk hx

lemma fold_nodup (l : List (String × Mat4)) : ∀ d : PDict String (List ℝ), (d.map Prod.fst).Nodup →
    ((l.foldl (fun d a => PDict.set d a.1 (Daenim.entries a.2)) d).map Prod.fst).Nodup := by
  induction l with
  | nil => intro d h; exact h
  | cons a l ih => intro d h; exact ih _ (pset_nodup h _ _)

lemma fold_get (l : List (String × Mat4)) (s : String) : ∀ d : PDict String (List ℝ),
    PDict.get? (l.foldl (fun d a => PDict.set d a.1 (Daenim.entries a.2)) d) s = ((lastOf l s).map Daenim.entries).or (PDict.get? d s) := by
  induction l with
  | nil => intro d; simp [lastOf]
  | cons a l ih =>
    intro d
    rw [List.foldl_cons, ih, pget_set, show a :: l = [a] ++ l from rfl, lastOf_append]
    cases hl : lastOf l s with
    | some H => simp
    | none =>
      by_cases h : s = a.1
      · simp [lastOf, h]
      · have : a.1 ≠ s := fun h' => h h'.symm
        simp [lastOf, h, this]

lemma matrixOf_entries {H : Mat4} (hH : H 3 = ![0, 0, 0, 1]) : matrixOf (Daenim.entries H) = H := by
  ext i j
  rw [matrixOf, Matrix.of_apply]
  split_ifs with h3 hj
  · rw [h3, hj, hH]; rfl
  · rw [h3, hH]; fin_cases j <;> first | rfl | exact absurd rfl hj
  · obtain ⟨i', rfl⟩ : ∃ i' : Fin 3, i = i'.castLE (by norm_num) := by
      refine ⟨⟨i, ?_⟩, rfl⟩
      have := i.2
      have : (i : ℕ) ≠ 3 := fun h => h3 (Fin.ext h)
      omega
    simp only [Fin.val_castLE, entries_get, Option.getD_some]

lemma lastOf_readDict {d : PDict String (List ℝ)} (hd : (d.map Prod.fst).Nodup) (s : String) : lastOf (readDict d) s = (PDict.get? d s).map matrixOf := by
  cases h : PDict.get? d s with
  | none =>
    rw [Option.map_none]
    refine lastOf_none ?_
    intro a ha
    obtain ⟨b, hb, rfl⟩ := List.mem_map.mp ha
    rintro rfl
    exact pget_none.mp h (List.mem_map.mpr ⟨b, hb, rfl⟩)
  | some l =>
    have hm : (s, l) ∈ d := by
      unfold PDict.get? at h
      rw [Option.map_eq_some_iff] at h
      obtain ⟨p, hp, rfl⟩ := h
      have h2 := List.find?_some hp
      simp only [decide_eq_true_eq] at h2
      rw [← h2]
      exact List.mem_of_find?_eq_some hp
    have hn : ((readDict d).map Prod.fst).Nodup := by
      rw [readDict, List.map_map]; exact hd
    exact lastOf_some (a := (s, matrixOf l)) hn (List.mem_map.mpr ⟨(s, l), hm, rfl⟩)

lemma truth_rows {flat : Bool} {w : LWorld} {names : ℕ → Option String} {v : View} (hrow : ∀ e, v.pose e 3 = ![0, 0, 0, 1] ∧ v.bpose e 3 = ![0, 0, 0, 1]) :
    ∀ a ∈ truth flat w names v, a.2 3 = ![0, 0, 0, 1] := by
  intro a ha
  rcases List.mem_append.mp ha with ha | ha
  · split at ha
    · obtain ⟨b, -, rfl⟩ := List.mem_map.mp ha; exact (hrow b).1
    · obtain ⟨b, -, rfl⟩ := List.mem_map.mp ha; exact (hrow b).1
  · obtain ⟨b, -, rfl⟩ := List.mem_map.mp ha
    dsimp only
    split
    · exact (hrow b).1
    · exact (hrow b).2

/-- **C126, one message.** If everything shown has a name, the message of a step has the time of the step, and gives each name
one matrix: that of the thing of this name (of the last one, if several share it). -/
theorem C126_message {flat : Bool} {w : LWorld} {names : ℕ → Option String} (hn : ∀ i ∈ shownThings flat w, (names i).isSome) {v : View}
    (hrow : ∀ e, v.pose e 3 = ![0, 0, 0, 1] ∧ v.bpose e 3 = ![0, 0, 0, 1]) :
    (Pydaenim.message flat w names v).command = "update_transforms" ∧ (Pydaenim.message flat w names v).time = v.time ∧
    ((Pydaenim.message flat w names v).frames.map Prod.fst).Nodup ∧
    ∀ s, lastOf (readDict (Pydaenim.message flat w names v).frames) s = lastOf (truth flat w names v) s := by
  have hnd : ((Pydaenim.message flat w names v).frames.map Prod.fst).Nodup := by
    rw [message_frames hn]
    exact fold_nodup _ _ List.nodup_nil
  refine ⟨rfl, rfl, hnd, ?_⟩
  intro s
  rw [lastOf_readDict hnd, message_frames hn, fold_get, pget_nil, Option.or_none, Option.map_map]
  cases h : lastOf (truth flat w names v) s with
  | none => rfl
  | some H =>
    have hm : ∃ a ∈ truth flat w names v, a.2 = H := by
      unfold lastOf at h
      rw [Option.map_eq_some_iff] at h
      obtain ⟨a, ha, rfl⟩ := h
      exact ⟨a, List.mem_reverse.mp (List.mem_of_find?_eq_some ha), rfl⟩
    obtain ⟨a, ha, rfl⟩ := hm
    simp [matrixOf_entries (truth_rows hrow a ha)]

/-- **C126, a run.** One message is sent per step, in order, as long as the viewer is there; without viewer nothing is sent,
and a line is printed at each step.  Nothing is raised, and `finish` sends nothing more. -/
theorem C126_run (flat : Bool) (w : LWorld) (names : ℕ → Option String) (sent : List Pydaenim.Msg) (views : List View) :
    Pydaenim.finish (runMessages flat w names ⟨sent, true⟩ views) = .ok ⟨sent ++ views.map (Pydaenim.message flat w names), true⟩ ∧
    Pydaenim.finish (runMessages flat w names ⟨sent, false⟩ views) = .ok ⟨sent, false⟩ ∧
    ∀ c v, (Pydaenim.update flat w names c v).2 = true ↔ c.up = false := by
  refine ⟨?_, ?_, fun c v => by cases h : c.up <;> simp [Pydaenim.update, h]⟩
  · change Except.ok _ = Except.ok _
    congr 1
    induction views generalizing sent with
    | nil => simp [runMessages]
    | cons v l ih =>
      have := ih (sent ++ [Pydaenim.message flat w names v])
      rw [runMessages] at this ⊢
      rw [List.foldl_cons, show (Pydaenim.update flat w names ⟨sent, true⟩ v).1 = ⟨sent ++ [Pydaenim.message flat w names v], true⟩ from rfl, this]
      simp
  · change Except.ok _ = Except.ok _
    congr 1
    induction views with
    | nil => rfl
    | cons v l ih => exact ih

lemma obey_congr {A B : List (String × Mat4)} (h : ∀ s, lastOf A s = lastOf B s) (ids : List (Option String)) (nodes : List Node) : obey A ids nodes = obey B ids nodes := by
  have : lastOf A = lastOf B := funext h
  rw [obey, obey, this]

/-- **C126.** A viewer has loaded the scene of the world written at some time, in the same mode, so that the shown things have
the names they had then.  Whatever it has missed, when it has applied the dictionary of one message it shows every body and
every registered subframe at its pose at that step. -/
theorem C126_live {o : Objs} {lim gr : ℕ} {ops : List Op} (hh : AllowedHistory o lim (World.new gr) ops) {w : World}
    (hw : w = runAll o lim (World.new gr) ops) {F : Forest (FrameRef × ℕ × FrameRef) ℕ} (hF : IsTree o w F) {lim' : ℕ} (hl : depth F ≤ lim')
    {g0 : Geo} {lw : LWorld} {encF : FrameRef → ℕ} {encJ : ℕ → ℕ} (hW : Watches o w F g0.moving encF encJ lw)
    -- the scene
    {idStr : ℕ → String} {flat : Bool} {n0 n1 : ℕ → Option String} (hsn : sceneNames idStr flat lw n0 = .ok n1) {lab : Labels}
    (hlab : ∀ f, InWorld o w F f → lab.frame f = n1 (encF f)) (hN : GoodNames o w F lab) (op : Opts) (argsort : Vec3 → Equiv.Perm (Fin 3))
    (hs : ∀ s ∈ w.shapes, ∃ r, shapeXform op argsort (lab.geo s) = .ok r)
    -- the observer
    {n2 : ℕ → Option String} (hkeep : ∀ e s, n1 e = some s → n2 e = some s)
    -- the message
    (now : View) (hrow : ∀ e, now.pose e 3 = ![0, 0, 0, 1] ∧ now.bpose e 3 = ![0, 0, 0, 1])
    {g : Geo} {lk : FrameRef × ℕ × FrameRef → Link} (hsee : Sees o w F encF encJ now g) (hG : GeoOk o g w.ground F lk)
    (hm : g.moving = g0.moving) (hst : ∀ x, g0.moving x = false → g.bpose x = g0.bpose x)
    (hfix : ∀ l ∈ F.links, ∀ x, l.2.2 = .sub x → g0.moving x = false) :
    ∃ calls c, parse o w lim' = .ok calls ∧ scene o g0 flat lab op argsort calls = .ok c ∧
      Shows o w F lab op argsort c (obey (readDict (Pydaenim.message flat lw (Pydaenim.init n2) now).frames) c.ids c.d.nodes) g := by
  set cfg : Cfg := ⟨true, false, false, flat⟩ with hcfg
  have hf : cfg.flat = flat := rfl
  obtain ⟨hname, -⟩ := animated_names hh hw hF hW hsn hlab hN hf hkeep hfix
  have hn : ∀ i ∈ shownThings flat lw, (n2 i).isSome := by
    intro i hi
    have hi' : i ∈ transformObjs cfg lw := by
      rw [transformObjs, hf]; exact hi
    obtain ⟨f, rfl⟩ := transformObjs_frame hW hi'
    obtain ⟨s, -, h2, -⟩ := hname f ((mem_transformObjs hW hf f).mp hi')
    rw [h2]; rfl
  obtain ⟨calls, c, h1, h2, h3⟩ := told_shows hh hw hF hl hW hsn hlab hN op argsort hs hkeep [] now hsee hG hm hst hfix
  refine ⟨calls, c, h1, h2, ?_⟩
  have e := obey_congr (C126_message (names := Pydaenim.init n2) hn hrow).2.2.2 c.ids c.d.nodes
  rw [e]
  change Shows o w F lab op argsort c (obey (truth flat lw n2 now) c.ids c.d.nodes) g
  simpa using h3

/-- the claim without names: every body of a flat world is told, under some name -/
def C126_Claim : Prop := ∀ (w : LWorld) (names : ℕ → Option String) (v : View), (∀ e, v.pose e 3 = ![0, 0, 0, 1]) →
  ∀ b ∈ w.bodies, ∃ s, lastOf (readDict (Pydaenim.message true w (Pydaenim.init names) v).frames) s = some (v.pose b)

/-- **C126, false part.** Unlike `DaenimCom`, `pydaenimCom` gives no names: the things without a name share one entry of the
message, `"null"`, so that only the last of them is told. -/
theorem C126_unnamed_false : ¬ C126_Claim := by
  intro h
  have hone : (1 : Mat4) 3 = ![0, 0, 0, 1] := by
    funext j; fin_cases j <;> first | rfl | (simp; rfl)
  have h0 := h ⟨[], [0, 1], [], id, fun _ => none, fun _ => [], fun _ => 0, 0⟩ (fun _ => none)
    ⟨0, fun _ => zeros [1], fun _ => zeros [1], fun e => if e = 0 then mkH 1 ![1, 0, 0] else 1, fun _ => 1, zeros [1], zeros [1], zeros [1], zeros [1], zeros [1]⟩
    (by
      intro e
      dsimp only
      split
      · funext j; fin_cases j <;> simp [mkH]
      · exact hone) 0 (by simp)
  obtain ⟨s, hs⟩ := h0
  have hd : (Pydaenim.message true ⟨[], [0, 1], [], id, fun _ => none, fun _ => [], fun _ => 0, 0⟩ (Pydaenim.init fun _ => none)
    ⟨0, fun _ => zeros [1], fun _ => zeros [1], fun e => if e = 0 then mkH 1 ![1, 0, 0] else 1, fun _ => 1, zeros [1], zeros [1], zeros [1], zeros [1], zeros [1]⟩).frames =
      [("null", Daenim.entries 1)] := by
    simp [Pydaenim.message, Pydaenim.init, Pydaenim.key, PDict.set, PDict.get?]
  rw [hd] at hs
  simp only [readDict, List.map_cons, List.map_nil, lastOf, List.reverse_singleton] at hs
  have h2 : s = "null" := by
    by_contra hne
    have hne' : ¬ ("null" = s) := fun h => hne h.symm
    simp [hne'] at hs
  subst h2
  simp only [List.find?_cons, decide_true, Option.map_some, Option.some.injEq, if_true] at hs
  rw [matrixOf_entries hone] at hs
  have := congrArg (fun H => pos H 0) hs
  simp only [pos_mkH] at this
  have hz : pos (1 : Mat4) 0 = 0 := rfl
  rw [hz] at this
  simp at this

/-- The hypotheses of C126 are met, in both modes, by the sliding arm of C99 at any place. -/
example (flat : Bool) (n : ℕ) : ∃ calls c i, parse exDO (runAll exDO 9 (World.new 0) exDOps) 9 = .ok calls ∧
    scene exDO (exCG 5) flat exCLab (defaultOpts 1) (fun _ => 1) calls = .ok c ∧ PDict.get? c.d.frameNodes (.sub 0) = some i ∧
    DrawnAt (obey (readDict (Pydaenim.message flat exCW (Pydaenim.init exCnames) (exCV n)).frames) c.ids c.d.nodes) i (mkH 1 ![(n : ℝ), (n : ℝ), 0]) := by
  have hsn : sceneNames (fun _ => "") flat exCW exCnames = .ok exCnames := by cases flat <;> rfl
  obtain ⟨calls, c, h2, h3, h4⟩ := C126_live exD_allowed rfl exD_tree (lim' := 9) (by decide) (exC_watches 5) hsn (lab := exCLab) (fun _ _ => rfl)
    exC_names (defaultOpts 1) (fun _ => 1) (fun s _ => ⟨_, rfl⟩) (n2 := exCnames) (fun _ _ h => h) (exCV n)
    (fun e => (exC_rows n e).1) (g := exCG n) (lk := exCL n) ⟨by
      intro f hf
      rcases exC_inWorld.mp hf with rfl | rfl | rfl <;> simp [exCV, exCencF, poseOf, bposeOf, exCG, Objs.bodyOf, exDO],
      by intro l hl; simp [exDF, Forest.links] at hl; subst hl; simp [exCV, exCG],
      fun x _ => rfl⟩ (exC_geo _) rfl (fun x hx => by cases hx) (by intro l hl; simp [exDF, Forest.links] at hl; subst hl; simp)
  obtain ⟨i, hi, hd⟩ := h4.frames (.sub 0) (exC_inWorld.mpr (.inr (.inr rfl)))
  refine ⟨calls, c, i, h2, h3, hi, ?_⟩
  have : poseOf exDO (exCG n) (.sub 0) = mkH 1 ![(n : ℝ), (n : ℝ), 0] := by
    simp [poseOf, bposeOf, exCG, Objs.bodyOf, exDO, exCP, exCB, mkH_mul]
  rw [← this]; exact hd

end Arboris
