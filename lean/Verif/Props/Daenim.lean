import Verif.Model.Daenim
import Verif.Spec.Daenim
import Verif.Props.Collada

/-! # C104: the stream sent to the viewer -/

namespace Arboris
open Log Visu Graph Spec

/-! ### reading the text -/

lemma pieces_append {c : Char} {a : List Char} (h : c ∉ a) (l : List Char) : pieces c (a ++ c :: l) = a :: pieces c l := by
  induction a with
  | nil => simp [pieces]
  | cons x a ih =>
    have hx : x ≠ c := fun e => h (e ▸ List.mem_cons_self)
    rw [List.cons_append, pieces, if_neg hx, ih fun hc => h (List.mem_cons_of_mem _ hc)]

lemma pieces_self {c : Char} {a : List Char} (h : c ∉ a) : pieces c a = [a] := by
  induction a with
  | nil => simp [pieces]
  | cons x a ih =>
    have hx : x ≠ c := fun e => h (e ▸ List.mem_cons_self)
    rw [pieces, if_neg hx, ih fun hc => h (List.mem_cons_of_mem _ hc)]

lemma pieces_intercalate {c : Char} : ∀ (ls : List (List Char)), ls ≠ [] → (∀ l ∈ ls, c ∉ l) → pieces c ([c].intercalate ls) = ls
  | [], h, _ => absurd rfl h
  | [a], _, h => by simpa using pieces_self (h a List.mem_cons_self)
  | a :: b :: ls, _, h => by
    have : [c].intercalate (a :: b :: ls) = a ++ c :: [c].intercalate (b :: ls) := by simp [List.intercalate_cons_cons]
    rw [this, pieces_append (h a List.mem_cons_self), pieces_intercalate (b :: ls) (by simp) fun l hl => h l (List.mem_cons_of_mem _ hl)]

lemma not_mem_intercalate {c d : Char} (hcd : c ≠ d) : ∀ (ls : List (List Char)), (∀ l ∈ ls, c ∉ l) → c ∉ [d].intercalate ls
  | [], _ => by simp [List.intercalate]
  | [a], h => by simpa using h a List.mem_cons_self
  | a :: b :: ls, h => by
    have : [d].intercalate (a :: b :: ls) = a ++ d :: [d].intercalate (b :: ls) := by simp [List.intercalate_cons_cons]
    rw [this, List.mem_append, List.mem_cons, not_or, not_or]
    exact ⟨h a List.mem_cons_self, hcd, not_mem_intercalate hcd (b :: ls) fun l hl => h l (List.mem_cons_of_mem _ hl)⟩

/-- a word: no space, no end of line -/
def Spec.Word (s : String) : Prop := ' ' ∉ s.toList ∧ '\n' ∉ s.toList

/-- the numbers are written as words, and those of `X` can be read (there are more real numbers than texts) -/
structure Spec.Readable (str : ℝ → String) (rd : List Char → ℝ) (X : Set ℝ) : Prop where
  word : ∀ x, Word (str x)
  read : ∀ x ∈ X, rd (str x).toList = x

/-- a record that can be sent: the name is a word, the matrix is homogeneous and its entries can be written exactly -/
structure Spec.Sendable (X : Set ℝ) (a : String × Mat4) : Prop where
  word : Word a.1
  row : a.2 3 = ![0, 0, 0, 1]
  entries : ∀ i j, a.2 i j ∈ X

lemma entries_length (H : Mat4) : (Daenim.entries H).length = 12 := by simp [Daenim.entries, List.finRange_succ]

lemma entries_get (H : Mat4) (i : Fin 3) (j : Fin 4) : (Daenim.entries H)[4 * (i : ℕ) + j]? = some (H (i.castLE (by norm_num)) j) := by
  fin_cases i <;> fin_cases j <;> rfl

lemma readLine_packing {str : ℝ → String} {rd : List Char → ℝ} {X : Set ℝ} (hR : Readable str rd X) {name : String} (hn : Word name) {H : Mat4} (hH : H 3 = ![0, 0, 0, 1]) (hX : ∀ i j, H i j ∈ X) :
    readLine rd (" ".intercalate (name :: (Daenim.entries H).map str)).toList = some (name, H) := by
  rw [String.toList_intercalate, show (" " : String).toList = [' '] from rfl, readLine, pieces_intercalate _ (by simp) (by
    intro l hl
    obtain ⟨s, hs, rfl⟩ := List.mem_map.mp hl
    rcases List.mem_cons.mp hs with rfl | hs
    · exact hn.1
    · obtain ⟨x, -, rfl⟩ := List.mem_map.mp hs
      exact (hR.word x).1)]
  rw [List.map_cons]
  simp only [List.length_map, entries_length, if_true, Option.some.injEq, Prod.mk.injEq]
  refine ⟨by simp, ?_⟩
  ext i j
  rw [Matrix.of_apply]
  split_ifs with h3 hj
  · rw [h3, hj, hH]; rfl
  · rw [h3, hH]; fin_cases j <;> first | rfl | exact absurd rfl hj
  · obtain ⟨i', rfl⟩ : ∃ i' : Fin 3, i = i'.castLE (by norm_num) := by
      refine ⟨⟨i, ?_⟩, rfl⟩
      have := i.2
      have : (i : ℕ) ≠ 3 := fun h => h3 (Fin.ext h)
      omega
    simp only [List.getElem?_map, Fin.val_castLE, entries_get, Option.map_some, Option.getD_some, hR.read _ (hX _ _)]

/-- the text of several records -/
noncomputable def textOf (str : ℝ → String) (recs : List (String × Mat4)) : List Char := recs.flatMap fun a => (Daenim.packing str a.1 a.2).toList

lemma readText_text {str : ℝ → String} {rd : List Char → ℝ} {X : Set ℝ} (hR : Readable str rd X) (tail : List Char) :
    ∀ (recs : List (String × Mat4)), (∀ a ∈ recs, Sendable X a) →
      readText rd (textOf str recs ++ tail) = recs ++ readText rd tail
  | [], _ => rfl
  | a :: recs, h => by
    obtain ⟨h1, h2, h4⟩ := h a List.mem_cons_self
    have e : textOf str (a :: recs) ++ tail = (" ".intercalate (a.1 :: (Daenim.entries a.2).map str)).toList ++ '\n' :: (textOf str recs ++ tail) := by
      simp [textOf, Daenim.packing]
    have hnl : '\n' ∉ (" ".intercalate (a.1 :: (Daenim.entries a.2).map str)).toList := by
      rw [String.toList_intercalate]
      refine not_mem_intercalate (by decide) _ ?_
      intro l hl
      obtain ⟨s, hs, rfl⟩ := List.mem_map.mp hl
      rcases List.mem_cons.mp hs with rfl | hs
      · exact h1.2
      · obtain ⟨x, -, rfl⟩ := List.mem_map.mp hs
        exact (hR.word x).2
    have ih := readText_text hR tail recs fun b hb => h b (List.mem_cons_of_mem _ hb)
    unfold readText at ih ⊢
    rw [e, pieces_append hnl, List.filterMap_cons, readLine_packing hR h1 h2 h4, ih]
    rfl

lemma message_text (str : ℝ → String) (flat : Bool) (w : LWorld) (names : ℕ → Option String) (v : View) :
    (Daenim.message str flat w names v).toList = textOf str (truth flat w names v) := by
  have hfold : ∀ {A : Type} (f : A → String) (l : List A) (s : String), (l.foldl (fun msg b => msg ++ f b) s).toList = s.toList ++ l.flatMap fun b => (f b).toList := by
    intro A f l
    induction l with
    | nil => intro s; simp
    | cons a l ih => intro s; rw [List.foldl_cons, ih]; simp
  unfold Daenim.message truth textOf
  rw [hfold, List.flatMap_append, List.flatMap_map]
  congr 1
  cases flat
  · simp only [Bool.false_eq_true, if_false]
    rw [hfold, List.flatMap_map]; rfl
  · simp only [if_true]
    rw [hfold, List.flatMap_map]; rfl

/-- all that has been sent -/
def Spec.stream (c : Daenim.Conn) : List Char := c.sent.flatMap String.toList

/-- the connection after a series of updates -/
noncomputable def Spec.afterUpdates (str : ℝ → String) (flat : Bool) (w : LWorld) (names : ℕ → Option String) (c : Option Daenim.Conn) (views : List View) : Option Daenim.Conn :=
  views.foldl (fun c v => (Daenim.update str flat w names c v).1) c

lemma updates_up (str : ℝ → String) (flat : Bool) (w : LWorld) (names : ℕ → Option String) (views : List View) : ∀ (sent : List String),
    afterUpdates str flat w names (some ⟨sent, true⟩) views = some ⟨sent ++ views.map (Daenim.message str flat w names), true⟩ := by
  induction views with
  | nil => intro s; simp [afterUpdates]
  | cons v views ih =>
    intro s
    have h1 : (Daenim.update str flat w names (some ⟨s, true⟩) v).1 = some ⟨s ++ [Daenim.message str flat w names v], true⟩ := by
      simp [Daenim.update, Daenim.send]
    have := ih (s ++ [Daenim.message str flat w names v])
    unfold afterUpdates at this ⊢
    rw [List.foldl_cons, h1, this]
    simp

/-- C104: whatever the way the stream is cut, what the viewer can read in it, from the connection to the end, is: at each step, the name and
the pose of every body and moving subframe (or, if the scene is not flat, of every joint's end and moving subframe, relatively to its parent), in order, and
nothing else.  The names must be words, and the numbers be written exactly. -/
theorem C104_stream {str : ℝ → String} {rd : List Char → ℝ} {X : Set ℝ} (hR : Readable str rd X) {idStr : ℕ → String} {flat : Bool} {w : LWorld} {n0 names : ℕ → Option String}
    {c : Option Daenim.Conn} (hinit : Daenim.init idStr flat w n0 true = .ok (c, names)) (views : List View)
    (hw : ∀ v ∈ views, ∀ a ∈ truth flat w names v, Sendable X a) :
    (∃ c', afterUpdates str flat w names c views = some c' ∧ readText rd (stream c') = views.flatMap (truth flat w names)) ∧
    ∃ c'', Daenim.finish (afterUpdates str flat w names c views) = .ok (some c'') ∧ readText rd (stream c'') = views.flatMap (truth flat w names) ∧
      c''.sent.getLast? = some "close_connection" := by
  have hc : c = some ⟨[], true⟩ := by
    unfold Daenim.init at hinit
    simp only [bind, Except.bind] at hinit
    split at hinit
    · cases hinit
    · cases hinit; rfl
  subst hc
  have hst : ∀ views : List View, (views.map (Daenim.message str flat w names)).flatMap String.toList = textOf str (views.flatMap (truth flat w names)) := by
    intro views
    induction views with
    | nil => rfl
    | cons v views ih =>
      rw [List.map_cons, List.flatMap_cons, ih, message_text, List.flatMap_cons]
      simp [textOf]
  have hall : ∀ a ∈ views.flatMap (truth flat w names), Sendable X a := by
    intro a ha
    obtain ⟨v, hv, hva⟩ := List.mem_flatMap.mp ha
    exact hw v hv a hva
  rw [updates_up]
  refine ⟨⟨_, rfl, ?_⟩, ⟨_, rfl, ?_, ?_⟩⟩
  · have := readText_text hR [] _ hall
    rw [List.append_nil] at this
    rw [stream, List.nil_append, hst, this]
    simp [readText, pieces, readLine]
  · rw [stream, List.nil_append, List.flatMap_append, hst, readText_text hR _ _ hall]
    have : readText rd (["close_connection"].flatMap String.toList) = [] := by
      have h1 : '\n' ∉ "close_connection".toList := by decide
      have h2 : ' ' ∉ "close_connection".toList := by decide
      rw [List.flatMap_cons, List.flatMap_nil, List.append_nil, readText, pieces_self h1, List.filterMap_cons, readLine, pieces_self h2]
      rfl
    rw [this, List.append_nil]
  · simp

/-! ### what the viewer shows -/

lemma lastOf_append (A B : List (String × Mat4)) (s : String) : lastOf (A ++ B) s = (lastOf B s).or (lastOf A s) := by
  unfold lastOf
  rw [List.reverse_append, List.find?_append]
  cases (B.reverse.find? fun a => a.1 = s) <;> simp

lemma lastOf_none {A : List (String × Mat4)} {s : String} (h : ∀ a ∈ A, a.1 ≠ s) : lastOf A s = none := by
  unfold lastOf
  rw [List.find?_eq_none.mpr, Option.map_none]
  intro a ha
  simpa using h a (List.mem_reverse.mp ha)

lemma lastOf_some {A : List (String × Mat4)} {a : String × Mat4} (hn : (A.map Prod.fst).Nodup) (h : a ∈ A) : lastOf A a.1 = some a.2 := by
  unfold lastOf
  cases hf : A.reverse.find? fun b => b.1 = a.1 with
  | none =>
    have := List.find?_eq_none.mp hf a (List.mem_reverse.mpr h)
    simp at this
  | some b =>
    have h1 := List.mem_reverse.mp (List.mem_of_find?_eq_some hf)
    have h2 := List.find?_some hf
    simp only [decide_eq_true_eq] at h2
    have := List.inj_on_of_nodup_map hn h1 h h2
    rw [this]; rfl

/-- records, as animations with one key -/
noncomputable def asAnims (told : List (String × Mat4)) : List Anim :=
  told.reverse.map fun a => ⟨a.1, [0], (flatten44 ⟨[1, 4, 4], fun idx => (matArray a.2).val idx.tail⟩).map id⟩

lemma keyOf_asAnims (told : List (String × Mat4)) (s : String) : keyOf (asAnims told) 0 s = lastOf told s := by
  unfold keyOf lastOf asAnims
  rw [List.find?_map]
  simp only [Option.map_map]
  change Option.map _ (List.find? (fun a : String × Mat4 => decide (a.1 = s)) _) = _
  congr 1
  funext a
  ext i j
  simp only [Function.comp]
  rw [matrixAt_flatten (by simp)]
  exact val_matArray ..

lemma play_asAnims (told : List (String × Mat4)) (ids : List (Option String)) (nodes : List Node) : play (asAnims told) 0 ids nodes = obey told ids nodes := by
  unfold play obey playNode
  congr 1
  funext id n
  have : keyOf (asAnims told) 0 = lastOf told := funext (keyOf_asAnims told)
  rw [this]

lemma truth_names (cfg : Cfg) (lw : LWorld) (names : ℕ → Option String) (v : View) :
    (truth cfg.flat lw names v).map Prod.fst = (transformObjs cfg lw).map fun i => (names i).getD "" := by
  unfold truth transformObjs
  split <;> simp [Function.comp_def]

/-- the viewer has been told things, and then the truth: it shows it -/
lemma told_shows {o : Objs} {lim gr : ℕ} {ops : List Op} (hh : AllowedHistory o lim (World.new gr) ops) {w : World}
    (hw : w = runAll o lim (World.new gr) ops) {F : Forest (FrameRef × ℕ × FrameRef) ℕ} (hF : IsTree o w F) {lim' : ℕ} (hl : depth F ≤ lim')
    {g0 : Geo} {lw : LWorld} {encF : FrameRef → ℕ} {encJ : ℕ → ℕ} (hW : Watches o w F g0.moving encF encJ lw)
    {idStr : ℕ → String} {flat : Bool} {n0 n1 : ℕ → Option String} (hsn : sceneNames idStr flat lw n0 = .ok n1) {lab : Labels}
    (hlab : ∀ f, InWorld o w F f → lab.frame f = n1 (encF f)) (hN : GoodNames o w F lab) (op : Opts) (argsort : Vec3 → Equiv.Perm (Fin 3))
    (hs : ∀ s ∈ w.shapes, ∃ r, shapeXform op argsort (lab.geo s) = .ok r)
    {names : ℕ → Option String} (hkeep : ∀ e s, n1 e = some s → names e = some s) (before : List View) (now : View)
    {g : Geo} {lk : FrameRef × ℕ × FrameRef → Link} (hsee : Sees o w F encF encJ now g) (hG : GeoOk o g w.ground F lk)
    (hm : g.moving = g0.moving) (hst : ∀ x, g0.moving x = false → g.bpose x = g0.bpose x)
    (hfix : ∀ l ∈ F.links, ∀ x, l.2.2 = .sub x → g0.moving x = false) :
    ∃ calls c, parse o w lim' = .ok calls ∧ scene o g0 flat lab op argsort calls = .ok c ∧
      Shows o w F lab op argsort c (obey ((before ++ [now]).flatMap (truth flat lw names)) c.ids c.d.nodes) g := by
  have hI : GInv o w := hw ▸ GInv.runAll (GInv.new o gr) hh
  set cfg : Cfg := ⟨true, false, false, flat⟩ with hcfg
  have hf : cfg.flat = flat := rfl
  obtain ⟨hname, hnd⟩ := animated_names hh hw hF hW hsn hlab hN hf hkeep hfix
  -- every name told is that of an animated frame
  have hnames : ∀ v, ∀ a ∈ truth flat lw names v, ∃ f, Animated w F g0.moving flat f ∧ lab.frame f = some a.1 := by
    intro v a ha
    have h1 : a.1 ∈ (truth cfg.flat lw names v).map Prod.fst := List.mem_map.mpr ⟨a, ha, rfl⟩
    rw [truth_names] at h1
    obtain ⟨e, he, h2⟩ := List.mem_map.mp h1
    obtain ⟨f, rfl⟩ := transformObjs_frame hW he
    have hA := (mem_transformObjs hW hf f).mp he
    obtain ⟨s, k1, k2, -⟩ := hname f hA
    rw [k2, Option.getD_some] at h2
    exact ⟨f, hA, h2 ▸ k1⟩
  set told := (before ++ [now]).flatMap (truth flat lw names) with htold
  have htold' : told = before.flatMap (truth flat lw names) ++ truth flat lw names now := by simp [htold]
  have htn : ∀ a ∈ told, ∃ f, Animated w F g0.moving flat f ∧ lab.frame f = some a.1 := by
    intro a ha
    obtain ⟨v, -, hva⟩ := List.mem_flatMap.mp ha
    exact hnames v a hva
  have hval : ∀ f H, Animated w F g0.moving flat f → ((names (encF f)).getD "", H) ∈ truth flat lw names now →
      (idOf (lab.frame f)).bind (keyOf (asAnims told) 0) = some H := by
    intro f H hfA hmem
    obtain ⟨s, h1, h2, h3⟩ := hname f hfA
    rw [h2, Option.getD_some] at hmem
    rw [h1, show idOf (some s) = some s by simp [idOf, Option.filter, h3], Option.bind_some, keyOf_asAnims, htold', lastOf_append,
      lastOf_some (a := (s, H)) (by
        have := truth_names cfg lw names now
        rw [hf] at this
        rw [this]; exact hnd) hmem]
    rfl
  have hnone : ∀ f, InWorld o w F f → ¬ Animated w F g0.moving flat f → (idOf (lab.frame f)).bind (keyOf (asAnims told) 0) = none := by
    intro f hfW hfA
    cases hlf : lab.frame f with
    | none => rfl
    | some s =>
      rw [show idOf (some s) = some s by
        have : s ≠ "" := fun h => hN.nonempty f hfW (h ▸ hlf)
        simp [idOf, Option.filter, this], Option.bind_some, keyOf_asAnims]
      refine lastOf_none ?_
      rintro a ha rfl
      obtain ⟨f', hA', hf'⟩ := htn a ha
      exact hfA (hN.inj f f' a.1 hfW (animated_inWorld hW hI hF hA') hlf hf' ▸ hA')
  have hbody : flat = true → ∀ b ∈ w.ground :: F.bodies, ((names (encF (.body b))).getD "", now.pose (encF (.body b))) ∈ truth flat lw names now := by
    intro hff b hb
    refine List.mem_append_left _ ?_
    rw [if_pos hff, hW.bodies]
    exact List.mem_map.mpr ⟨_, List.mem_map.mpr ⟨b, hb, rfl⟩, rfl⟩
  have hmov : ∀ x, InWorld o w F (.sub x) → g0.moving x = true →
      ((names (encF (.sub x))).getD "", if flat then now.pose (encF (.sub x)) else now.bpose (encF (.sub x))) ∈ truth flat lw names now := by
    intro x hx hmx
    refine List.mem_append_right _ ?_
    rw [hW.moving]
    exact List.mem_map.mpr ⟨_, List.mem_map.mpr ⟨x, List.mem_filter.mpr ⟨hx.2 x rfl, hmx⟩, rfl⟩, rfl⟩
  have hlink : flat = false → ∀ l0 ∈ F.links, ((names (encF l0.2.2)).getD "", now.pose (encJ l0.2.1)) ∈ truth flat lw names now := by
    intro hff l0 hl0
    refine List.mem_append_left _ ?_
    rw [if_neg (by simp [hff]), hW.joints, joints, List.map_map]
    refine List.mem_map.mpr ⟨_, List.mem_map.mpr ⟨l0, hl0, rfl⟩, ?_⟩
    simp only [Function.comp, hW.frame1 l0 hl0]
  have key : Replay o w F flat g0 g fun f => (idOf (lab.frame f)).bind (keyOf (asAnims told) 0) := by
    refine ⟨hm, hst, ?_, ?_, ?_, ?_, ?_, ?_, ?_, ?_⟩
    · have hgW : InWorld o w F (.body w.ground) := ⟨List.mem_cons_self, fun x hx => by cases hx⟩
      by_cases hA : Animated w F g0.moving flat (.body w.ground)
      · rcases hA with ⟨x, _, _, h⟩ | h
        · cases h
        · by_cases hff : flat = true
          · have h1 := hbody hff w.ground List.mem_cons_self
            rw [hsee.frame _ hgW, poseOf, bposeOf, Objs.bodyOf, hG.ground, Matrix.mul_one] at h1
            rw [hval (.body w.ground) 1 (.inr h) h1]
            rfl
          · rw [if_neg hff] at h
            obtain ⟨l0, hl0, h⟩ := h
            have := (unfolds_ends hF.unfolds hl0).2.2.2
            rw [← h] at this
            exact absurd this (List.nodup_cons.mp hF.bodies_nodup).1
      · rw [hnone _ hgW hA]; rfl
    · intro hff b hb
      have hbW : InWorld o w F (.body b) := ⟨hb, fun x hx => by cases hx⟩
      have hp : poseOf o g (.body b) = g.bodyPose b := by simp [poseOf, bposeOf, Objs.bodyOf]
      have h1 := hbody hff b hb
      rw [hsee.frame _ hbW, hp] at h1
      exact hval (.body b) _ (.inr (by rw [if_pos hff]; exact ⟨b, hb, rfl⟩)) h1
    · intro hff x hx hmx
      have h1 := hmov x hx hmx
      rw [if_pos hff, hsee.frame _ hx] at h1
      exact hval (.sub x) _ (.inl ⟨x, hx.2 x rfl, hmx, rfl⟩) h1
    · intro hff x hx hmx
      refine hnone _ hx ?_
      rintro (⟨y, _, hy, h⟩ | h)
      · cases h; rw [hmx] at hy; cases hy
      · rw [if_pos hff] at h
        obtain ⟨b, -, h⟩ := h
        cases h
    · intro hff l0 hl0
      have h1 := hlink hff l0 hl0
      rw [hsee.joint l0 hl0] at h1
      exact hval l0.2.2 _ (.inr (by rw [if_neg (by simp [hff])]; exact ⟨l0, hl0, rfl⟩)) h1
    · intro hff x hx hmx
      have h1 := hmov x hx hmx
      rw [if_neg (by simp [hff]), hsee.bpose _ hx] at h1
      exact hval (.sub x) _ (.inl ⟨x, hx.2 x rfl, hmx, rfl⟩) h1
    · intro hff l0 hl0 x hx
      have hb := (unfolds_ends hF.unfolds hl0).2.2.2
      rw [hx] at hb
      refine hnone _ ⟨List.mem_cons_of_mem _ hb, fun y hy => by cases hy⟩ ?_
      rintro (⟨y, _, hy, h⟩ | h)
      · cases h
      · rw [if_neg (by simp [hff])] at h
        obtain ⟨l1, hl1, h⟩ := h
        have hbn : (F.links.map fun l => o.bodyOf l.2.2).Nodup := unfolds_bodies hF.unfolds ▸ (List.nodup_cons.mp hF.bodies_nodup).2
        have := List.inj_on_of_nodup_map hbn hl0 hl1 (by rw [hx, ← h]; rfl)
        rw [← this, hx] at h
        cases h
    · intro hff x hx hmx hno
      refine hnone _ hx ?_
      rintro (⟨y, _, hy, h⟩ | h)
      · cases h; rw [hmx] at hy; cases hy
      · rw [if_neg (by simp [hff])] at h
        obtain ⟨l1, hl1, h⟩ := h
        exact hno l1 hl1 h.symm
  obtain ⟨calls, c, h1, h2, h3⟩ := replay_world hh hw hF hl hG key hN hs
  rw [play_asAnims] at h3
  exact ⟨calls, c, h1, h2, h3⟩

/-- C104: a world is shown by the viewer, which has loaded the scene written at some time (at any configuration `g0`) with the same value of `flat`.
Whenever the viewer has read what `DaenimCom` has sent up to some step, it shows every body and every registered subframe at its pose at
that step. -/
theorem C104_live {o : Objs} {lim gr : ℕ} {ops : List Op} (hh : AllowedHistory o lim (World.new gr) ops) {w : World}
    (hw : w = runAll o lim (World.new gr) ops) {F : Forest (FrameRef × ℕ × FrameRef) ℕ} (hF : IsTree o w F) {lim' : ℕ} (hl : depth F ≤ lim')
    {g0 : Geo} {lw : LWorld} {encF : FrameRef → ℕ} {encJ : ℕ → ℕ} (hW : Watches o w F g0.moving encF encJ lw)
    -- the scene
    {idStr : ℕ → String} {flat : Bool} {n0 n1 : ℕ → Option String} (hsn : sceneNames idStr flat lw n0 = .ok n1) {lab : Labels}
    (hlab : ∀ f, InWorld o w F f → lab.frame f = n1 (encF f)) (hN : GoodNames o w F lab) (op : Opts) (argsort : Vec3 → Equiv.Perm (Fin 3))
    (hs : ∀ s ∈ w.shapes, ∃ r, shapeXform op argsort (lab.geo s) = .ok r)
    -- the observer
    {n2 names : ℕ → Option String} {c0 : Option Daenim.Conn} (hinit : Daenim.init idStr flat lw n2 true = .ok (c0, names)) (hkeep : ∀ e s, n1 e = some s → names e = some s)
    (hwords : ∀ f s, InWorld o w F f → lab.frame f = some s → Word s) {str : ℝ → String} {rd : List Char → ℝ} {X : Set ℝ} (hR : Readable str rd X)
    -- the steps up to now
    (before : List View) (now : View) (hrow : ∀ v ∈ before ++ [now], ∀ e, v.pose e 3 = ![0, 0, 0, 1] ∧ v.bpose e 3 = ![0, 0, 0, 1])
    (hX : ∀ v ∈ before ++ [now], ∀ e i j, v.pose e i j ∈ X ∧ v.bpose e i j ∈ X)
    {g : Geo} {lk : FrameRef × ℕ × FrameRef → Link} (hsee : Sees o w F encF encJ now g) (hG : GeoOk o g w.ground F lk)
    (hm : g.moving = g0.moving) (hst : ∀ x, g0.moving x = false → g.bpose x = g0.bpose x)
    (hfix : ∀ l ∈ F.links, ∀ x, l.2.2 = .sub x → g0.moving x = false) :
    ∃ c' calls c, afterUpdates str flat lw names c0 (before ++ [now]) = some c' ∧ parse o w lim' = .ok calls ∧ scene o g0 flat lab op argsort calls = .ok c ∧
      Shows o w F lab op argsort c (obey (readText rd (stream c')) c.ids c.d.nodes) g := by
  have hI : GInv o w := hw ▸ GInv.runAll (GInv.new o gr) hh
  set cfg : Cfg := ⟨true, false, false, flat⟩ with hcfg
  have hf : cfg.flat = flat := rfl
  obtain ⟨hname, hnd⟩ := animated_names hh hw hF hW hsn hlab hN hf hkeep hfix
  -- every name told is that of an animated frame
  have hnames : ∀ v, ∀ a ∈ truth flat lw names v, ∃ f, Animated w F g0.moving flat f ∧ lab.frame f = some a.1 := by
    intro v a ha
    have h1 : a.1 ∈ (truth cfg.flat lw names v).map Prod.fst := List.mem_map.mpr ⟨a, ha, rfl⟩
    rw [truth_names] at h1
    obtain ⟨e, he, h2⟩ := List.mem_map.mp h1
    obtain ⟨f, rfl⟩ := transformObjs_frame hW he
    have hA := (mem_transformObjs hW hf f).mp he
    obtain ⟨s, k1, k2, -⟩ := hname f hA
    rw [k2, Option.getD_some] at h2
    exact ⟨f, hA, h2 ▸ k1⟩
  have hgood : ∀ v ∈ before ++ [now], ∀ a ∈ truth flat lw names v, Sendable X a := by
    intro v hv a ha
    obtain ⟨f, hA, hfn⟩ := hnames v a ha
    have hwd := hwords f a.1 (animated_inWorld hW hI hF hA) hfn
    have : a.2 3 = ![0, 0, 0, 1] ∧ ∀ i j, a.2 i j ∈ X := by
      rcases List.mem_append.mp ha with ha | ha
      · split at ha
        · obtain ⟨b, -, rfl⟩ := List.mem_map.mp ha; exact ⟨(hrow v hv b).1, fun i j => (hX v hv b i j).1⟩
        · obtain ⟨b, -, rfl⟩ := List.mem_map.mp ha; exact ⟨(hrow v hv b).1, fun i j => (hX v hv b i j).1⟩
      · obtain ⟨b, -, rfl⟩ := List.mem_map.mp ha
        dsimp only
        split
        · exact ⟨(hrow v hv b).1, fun i j => (hX v hv b i j).1⟩
        · exact ⟨(hrow v hv b).2, fun i j => (hX v hv b i j).2⟩
    exact ⟨hwd, this.1, this.2⟩
  obtain ⟨⟨c', hc', hread⟩, -⟩ := C104_stream hR hinit (before ++ [now]) hgood
  obtain ⟨calls, c, h1, h2, h3⟩ := told_shows hh hw hF hl hW hsn hlab hN op argsort hs hkeep before now hsee hG hm hst hfix
  exact ⟨c', calls, c, hc', h1, h2, by rw [hread]; exact h3⟩

/-! ### no viewer -/

/-- C104: a viewer that is closed during the run does not disturb it: nothing is raised, by `update` or by `finish`, and what had been sent is not changed. -/
theorem C104_closed (str : ℝ → String) (flat : Bool) (w : LWorld) (names : ℕ → Option String) (sent : List String) (views : List View) :
    afterUpdates str flat w names (some ⟨sent, false⟩) views = some ⟨sent, false⟩ ∧ Daenim.finish (some ⟨sent, false⟩) = .ok (some ⟨sent, false⟩) := by
  refine ⟨?_, rfl⟩
  induction views with
  | nil => rfl
  | cons v views ih => exact ih

/-- the claim: without a viewer, the observer does nothing and raises nothing -/
def C104_Claim : Prop := ∀ (str : ℝ → String) (idStr : ℕ → String) (flat : Bool) (w : LWorld) (n0 names : ℕ → Option String) (c : Option Daenim.Conn) (views : List View),
  Daenim.init idStr flat w n0 false = .ok (c, names) → ∃ c', Daenim.finish (afterUpdates str flat w names c views) = .ok c'

/-- C104 is false of the code when nobody has connected (the viewer is not installed, or came too late): the updates do nothing, but
`finish` raises `AttributeError` at the end of the run, for every world and every number of steps: `None` has no `send`, and only
`socket.error` is caught. -/
theorem C104_alone_false : ¬ C104_Claim ∧ ∀ (str : ℝ → String) (idStr : ℕ → String) (flat : Bool) (w : LWorld) (n0 names : ℕ → Option String) (c : Option Daenim.Conn) (views : List View),
    Daenim.init idStr flat w n0 false = .ok (c, names) → afterUpdates str flat w names c views = none ∧
      Daenim.finish (afterUpdates str flat w names c views) = .error .attributeError := by
  have key : ∀ (str : ℝ → String) (idStr : ℕ → String) (flat : Bool) (w : LWorld) (n0 names : ℕ → Option String) (c : Option Daenim.Conn) (views : List View),
      Daenim.init idStr flat w n0 false = .ok (c, names) → afterUpdates str flat w names c views = none ∧
        Daenim.finish (afterUpdates str flat w names c views) = .error .attributeError := by
    intro str idStr flat w n0 names c views h
    have hc : c = none := by
      unfold Daenim.init at h
      simp only [bind, Except.bind] at h
      split at h
      · cases h
      · cases h; rfl
    subst hc
    have h1 : afterUpdates str flat w names none views = none := by
      induction views with
      | nil => rfl
      | cons v views ih => exact ih
    exact ⟨h1, by rw [h1]; rfl⟩
  refine ⟨fun hC => ?_, key⟩
  have hi : Daenim.init (fun _ => "") true ⟨[], [], [], id, fun _ => none, fun _ => [], fun _ => 0, 0⟩ (fun _ => none) false = .ok (none, fun _ => none) := rfl
  obtain ⟨c', h⟩ := hC (fun _ => "") _ _ _ _ _ _ [] hi
  rw [(key (fun _ => "") _ _ _ _ _ _ [] hi).2] at h
  cases h

/-! ### The sliding arm of C99, shown live; the numbers are the natural ones, written with strokes -/

noncomputable def exStr (x : ℝ) : String := String.ofList (List.replicate ⌊x⌋₊ 'I')

lemma exStr_readable : Readable exStr (fun l => (l.length : ℝ)) (Set.range ((↑) : ℕ → ℝ)) := by
  refine ⟨fun x => ⟨?_, ?_⟩, ?_⟩
  · simp [exStr, List.mem_replicate]
  · simp [exStr, List.mem_replicate]
  · rintro _ ⟨n, rfl⟩
    simp [exStr]

lemma exC_rows (k : ℕ) (e : ℕ) : ((exCV k).pose e 3 = ![0, 0, 0, 1] ∧ (exCV k).bpose e 3 = ![0, 0, 0, 1]) ∧
    ∀ i j, (exCV k).pose e i j ∈ Set.range ((↑) : ℕ → ℝ) ∧ (exCV k).bpose e i j ∈ Set.range ((↑) : ℕ → ℝ) := by
  have h0 : ∀ a b : ℕ, (mkH 1 ![(a : ℝ), (b : ℝ), 0]) 3 = ![0, 0, 0, 1] ∧ ∀ i j, mkH 1 ![(a : ℝ), (b : ℝ), 0] i j ∈ Set.range ((↑) : ℕ → ℝ) := by
    intro a b
    have hm : mkH 1 ![(a : ℝ), (b : ℝ), 0] = !![1, 0, 0, (a : ℝ); 0, 1, 0, (b : ℝ); 0, 0, 1, 0; 0, 0, 0, 1] := by
      ext i j
      fin_cases i <;> fin_cases j <;> simp [mkH, e4] <;> rfl
    rw [hm]
    refine ⟨rfl, fun i j => ?_⟩
    fin_cases i <;> fin_cases j <;> first
      | exact ⟨0, Nat.cast_zero⟩
      | exact ⟨1, Nat.cast_one⟩
      | exact ⟨a, rfl⟩
      | exact ⟨b, rfl⟩
  have hb : (exCV k).bpose e = mkH 1 ![((0 : ℕ) : ℝ), (k : ℝ), 0] := by simp [exCV, exCB]
  have hp : ∃ a b : ℕ, (exCV k).pose e = mkH 1 ![(a : ℝ), (b : ℝ), 0] := by
    by_cases h1 : e = 0
    · refine ⟨0, 0, ?_⟩
      have : ![((0 : ℕ) : ℝ), ((0 : ℕ) : ℝ), 0] = 0 := by ext i; fin_cases i <;> simp
      rw [this]
      simp [exCV, h1, mkH_one]
    · by_cases h2 : e = 1
      · exact ⟨k, k, by simp [exCV, h2, exCP, exCB, mkH_mul]⟩
      · exact ⟨k, 0, by simp [exCV, h1, h2, exCP]⟩
  obtain ⟨a, b, hp⟩ := hp
  rw [hb, hp]
  exact ⟨⟨(h0 a b).1, (h0 0 k).1⟩, fun i j => ⟨(h0 a b).2 i j, (h0 0 k).2 i j⟩⟩

/-- The hypotheses of C104 are met, in both modes, after any number of steps of the sliding arm. -/
example (flat : Bool) (n : ℕ) : ∃ c0 c' calls c, Daenim.init (fun _ => "") flat exCW exCnames true = .ok (c0, exCnames) ∧
    afterUpdates exStr flat exCW exCnames c0 (((List.range n).map fun k : ℕ => exCV k) ++ [exCV n]) = some c' ∧
    parse exDO (runAll exDO 9 (World.new 0) exDOps) 9 = .ok calls ∧ scene exDO (exCG 5) flat exCLab (defaultOpts 1) (fun _ => 1) calls = .ok c ∧
      ∃ i, PDict.get? c.d.frameNodes (.sub 0) = some i ∧
        DrawnAt (obey (readText (fun l => (l.length : ℝ)) (stream c')) c.ids c.d.nodes) i (mkH 1 ![(n : ℝ), (n : ℝ), 0]) := by
  have hinit : Daenim.init (fun _ => "") flat exCW exCnames true = .ok (some ⟨[], true⟩, exCnames) := by cases flat <;> rfl
  have hsn : sceneNames (fun _ => "") flat exCW exCnames = .ok exCnames := by cases flat <;> rfl
  have hviews : ∀ v ∈ ((List.range n).map fun k : ℕ => exCV k) ++ [exCV n], ∃ k : ℕ, v = exCV k := by
    intro v hv
    rcases List.mem_append.mp hv with hv | hv
    · obtain ⟨k, -, rfl⟩ := List.mem_map.mp hv; exact ⟨k, rfl⟩
    · exact ⟨n, List.mem_singleton.mp hv⟩
  obtain ⟨c', calls, c, h1, h2, h3, h4⟩ := C104_live exD_allowed rfl exD_tree (lim' := 9) (by decide) (exC_watches 5) hsn (lab := exCLab) (fun _ _ => rfl)
    exC_names (defaultOpts 1) (fun _ => 1) (fun s _ => ⟨_, rfl⟩) hinit (fun _ _ h => h) (by
      intro f s hf h
      rcases exC_inWorld.mp hf with rfl | rfl | rfl <;> simp only [exCLab, exCnames, exCencF, Option.some.injEq] at h <;> subst h <;> constructor <;> decide)
    exStr_readable ((List.range n).map fun k : ℕ => exCV k) (exCV n)
    (fun v hv e => by obtain ⟨k, rfl⟩ := hviews v hv; exact (exC_rows k e).1)
    (fun v hv e => by obtain ⟨k, rfl⟩ := hviews v hv; exact (exC_rows k e).2) (g := exCG n) (lk := exCL n) ⟨by
      intro f hf
      rcases exC_inWorld.mp hf with rfl | rfl | rfl <;> simp [exCV, exCencF, poseOf, bposeOf, exCG, Objs.bodyOf, exDO],
      by intro l hl; simp [exDF, Forest.links] at hl; subst hl; simp [exCV, exCG],
      fun x _ => rfl⟩ (exC_geo _) rfl (fun x hx => by cases hx) (by intro l hl; simp [exDF, Forest.links] at hl; subst hl; simp)
  obtain ⟨i, hi, hd⟩ := h4.frames (.sub 0) (exC_inWorld.mpr (.inr (.inr rfl)))
  refine ⟨_, c', calls, c, hinit, h1, h2, h3, i, hi, ?_⟩
  have : poseOf exDO (exCG n) (.sub 0) = mkH 1 ![(n : ℝ), (n : ℝ), 0] := by
    simp [poseOf, bposeOf, exCG, Objs.bodyOf, exDO, exCP, exCB, mkH_mul]
  rw [← this]; exact hd

end Arboris
