import Verif.Proofs.UrdfLoad

/-!
# Links added in any order, below the ground or below new bodies
-/

namespace Arboris
open Matrix Graph Build Spec

/-- To the tree `F`, whose links below the ground are the joints `js0`, are added the links `Ls`, whose joints are numbered from `j0`.  Each
goes from the ground or from one of the bodies numbered from `m` to `n`, to one of these bodies. -/
structure Web (m n j0 : ℕ) (F : Forest (FrameRef × ℕ × FrameRef) ℕ) (js0 : List ℕ) (S : RS) (Ls : List (FrameRef × ℕ × FrameRef)) : Prop where
  unfolds : Unfolds S.o S.w S.w.ground js0 F
  root : (S.w.body S.w.ground).parent = none
  kids : (S.w.body S.w.ground).children = js0 ++ (Ls.filter fun l => S.o.bodyOf l.1 = S.w.ground).map fun l => l.2.1
  bnodup : (S.w.ground :: F.bodies).Nodup
  jnodup : (joints F).Nodup
  low : ∀ b ∈ S.w.ground :: F.bodies, b < m
  lowj : ∀ j ∈ joints F, j < j0
  oldF : ∀ l ∈ F.links, Old S l.1 ∧ Old S l.2.2
  ndofF : ∀ j ∈ joints F, S.o.ndof j = (S.jattr j).ndof
  le : m ≤ n
  nb : S.nb = n
  nj : S.nj = j0 + Ls.length
  nums : Ls.map (fun l => l.2.1) = List.range' j0 Ls.length
  old : ∀ l ∈ Ls, Old S l.1 ∧ Old S l.2.2
  ends0 : ∀ l ∈ Ls, S.o.bodyOf l.1 = S.w.ground ∨ m ≤ S.o.bodyOf l.1 ∧ S.o.bodyOf l.1 < n
  ends1 : ∀ l ∈ Ls, m ≤ S.o.bodyOf l.2.2 ∧ S.o.bodyOf l.2.2 < n
  frames : ∀ l ∈ Ls, (S.w.joint l.2.1).frame0 = some l.1 ∧ (S.w.joint l.2.1).frame1 = some l.2.2
  known : ∀ l ∈ Ls, Known S.w l.1 ∧ Known S.w l.2.2
  children : ∀ b, m ≤ b → b < n → (S.w.body b).children = (Ls.filter fun l => S.o.bodyOf l.1 = b).map fun l => l.2.1
  parent_none : ∀ b, m ≤ b → b < n → (∀ l ∈ Ls, S.o.bodyOf l.2.2 ≠ b) → (S.w.body b).parent = none
  parent : ∀ l ∈ Ls, (S.w.body (S.o.bodyOf l.2.2)).parent = some l.2.1
  ndof : ∀ l ∈ Ls, S.o.ndof l.2.1 = (S.jattr l.2.1).ndof

section
variable {m n j0 : ℕ} {F : Forest (FrameRef × ℕ × FrameRef) ℕ} {js0 : List ℕ} {S S' : RS} {Ls : List (FrameRef × ℕ × FrameRef)}

lemma Web.lt_nj (h : Web m n j0 F js0 S Ls) {l : FrameRef × ℕ × FrameRef} (hl : l ∈ Ls) : l.2.1 < S.nj := by
  have : l.2.1 ∈ Ls.map (fun l => l.2.1) := List.mem_map_of_mem (f := fun l : FrameRef × ℕ × FrameRef => l.2.1) hl
  rw [h.nums, List.mem_range'_1] at this
  rw [h.nj]; omega

/-- new bodies, no link yet -/
lemma Web.start (hg : Good S F) (hm : ∀ b ∈ S.w.ground :: F.bodies, b < m) (hmn : m ≤ n) (hb : S.nb = n) (hj : ∀ j ∈ joints F, j < S.nj)
    (fresh : ∀ b, m ≤ b → b < n → FreshBody S.w b) : Web m n S.nj F (S.w.body S.w.ground).children S [] := by
  refine ⟨hg.tree.unfolds, hg.tree.root, by simp, hg.tree.bodies_nodup, hg.tree.joints_nodup, hm, hj, hg.frames, hg.ndof, hmn, hb, by simp, by simp,
    by simp, by simp, by simp, by simp, by simp, ?_, ?_, by simp, by simp⟩
  · intro b h1 h2; simpa using (fresh b h1 h2).2.2
  · intro b h1 h2 _; exact (fresh b h1 h2).2.1

lemma Web.mono (h : Web m n j0 F js0 S Ls) (hk : Keeps S S') (hb : S'.nb = S.nb) (hj : S'.nj = S.nj)
    (wb : S'.w.body = S.w.body) (wj : S'.w.joint = S.w.joint) : Web m n j0 F js0 S' Ls := by
  have e0 : ∀ l ∈ Ls, S'.o.bodyOf l.1 = S.o.bodyOf l.1 := fun l hl => hk.bodyOf (h.old l hl).1
  have e1 : ∀ l ∈ Ls, S'.o.bodyOf l.2.2 = S.o.bodyOf l.2.2 := fun l hl => hk.bodyOf (h.old l hl).2
  have hF : ∀ j ∈ joints F, j < S.nj := fun j hj => by have := h.lowj j hj; rw [h.nj]; omega
  refine ⟨?_, by rw [hk.ground, wb]; exact h.root, ?_, by rw [hk.ground]; exact h.bnodup, h.jnodup, by rw [hk.ground]; exact h.low, h.lowj,
    fun l hl => ⟨hk.old (h.oldF l hl).1, hk.old (h.oldF l hl).2⟩, ?_, h.le, hb.trans h.nb, hj.trans h.nj, h.nums,
    fun l hl => ⟨hk.old (h.old l hl).1, hk.old (h.old l hl).2⟩,
    ?_, ?_, by rw [wj]; exact h.frames, fun l hl => ⟨(h.known l hl).1.mono hk.subframes, (h.known l hl).2.mono hk.subframes⟩, ?_, ?_, ?_, ?_⟩
  · rw [hk.ground]
    exact h.unfolds.congr (fun c _ => by rw [wb]) (fun c _ => by rw [wj]) (fun l hl => ⟨hk.bodyOf (h.oldF l hl).1, hk.bodyOf (h.oldF l hl).2⟩)
  · rw [hk.ground, wb, h.kids]
    congr 2
    apply List.filter_congr
    intro l hl; rw [e0 l hl]
  · intro j hj
    obtain ⟨q1, _, q2⟩ := hk.joint j (hF j hj)
    rw [q1, q2]; exact h.ndofF j hj
  · intro l hl; rw [e0 l hl, hk.ground]; exact h.ends0 l hl
  · intro l hl; rw [e1 l hl]; exact h.ends1 l hl
  · intro b h1 h2
    rw [wb, h.children b h1 h2]
    congr 1
    apply List.filter_congr
    intro l hl; rw [e0 l hl]
  · intro b h1 h2 h3
    rw [wb]
    exact h.parent_none b h1 h2 (fun l hl => by rw [← e1 l hl]; exact h3 l hl)
  · intro l hl; rw [e1 l hl, wb]; exact h.parent l hl
  · intro l hl
    obtain ⟨q1, _, q2⟩ := hk.joint l.2.1 (h.lt_nj hl)
    rw [q1, q2]; exact h.ndof l hl

lemma Web.sub (h : Web m n j0 F js0 S Ls) (b : ℕ) {H : Mat4} (hH : ishomogeneousmatrix H) (name : Option String) :
    ∃ S', Runs (newSub b H name) S S.ns S' ∧ Web m n j0 F js0 S' Ls ∧ Keeps S S' ∧ S'.o.subBody S.ns = b ∧ S'.bpose S.ns = H ∧
      S'.fname S.ns = name ∧ S'.nj = S.nj ∧ S'.ns = S.ns + 1 ∧ S'.nsh = S.nsh := by
  have hk : Keeps S { S with ns := S.ns + 1, o := { S.o with subBody := Function.update S.o.subBody S.ns b }, bpose := Function.update S.bpose S.ns H, fname := Function.update S.fname S.ns name } := by
    refine ⟨le_rfl, le_rfl, Nat.le_succ _, le_rfl, rfl, fun _ _ => ⟨rfl, rfl⟩, fun _ _ => ⟨rfl, rfl, rfl⟩, ?_, fun _ _ => ⟨rfl, rfl, rfl⟩,
      fun _ h => h, fun _ h => h⟩
    intro f hf
    simp only
    rw [Function.update_of_ne (by omega), Function.update_of_ne (by omega), Function.update_of_ne (by omega)]
    exact ⟨rfl, rfl, rfl⟩
  exact ⟨_, by unfold Runs newSub; rw [if_pos hH], h.mono hk rfl rfl rfl rfl, hk, Function.update_self .., Function.update_self .., Function.update_self ..,
    rfl, rfl, rfl⟩

lemma Web.link (h : Web m n j0 F js0 S Ls) {f0 f1 : FrameRef} (o0 : Old S f0) (o1 : Old S f1)
    (h0 : S.o.bodyOf f0 = S.w.ground ∨ m ≤ S.o.bodyOf f0 ∧ S.o.bodyOf f0 < n)
    (h1 : m ≤ S.o.bodyOf f1 ∧ S.o.bodyOf f1 < n) (hc : ∀ l ∈ Ls, S.o.bodyOf l.2.2 ≠ S.o.bodyOf f1) (a : JAttr) (name : Option String) :
    ∃ S1 S2, Runs (newJoint a name) S S.nj S1 ∧ Runs (Build.link f0 S.nj f1) S1 () S2 ∧ Web m n j0 F js0 S2 (Ls ++ [(f0, S.nj, f1)]) ∧
      Keeps S S2 ∧ S2.jattr S.nj = a ∧ S2.jname S.nj = name ∧ S2.o.bodyOf f0 = S.o.bodyOf f0 ∧ S2.o.bodyOf f1 = S.o.bodyOf f1 ∧ S2.bposeOf = S.bposeOf ∧
      S2.ns = S.ns ∧ S2.nsh = S.nsh := by
  obtain ⟨S1, eS⟩ : ∃ S1, S1 = { S with nj := S.nj + 1, o := { S.o with ndof := Function.update S.o.ndof S.nj a.ndof }, jattr := Function.update S.jattr S.nj a, jname := Function.update S.jname S.nj name, w := { S.w with joint := Function.update S.w.joint S.nj {} } } := ⟨_, rfl⟩
  have r1 : Runs (newJoint a name) S S.nj S1 := by unfold Runs newJoint; rw [eS]
  have ja : S1.jattr S.nj = a := by rw [eS]; exact Function.update_self ..
  have jn : S1.jname S.nj = name := by rw [eS]; exact Function.update_self ..
  have jd : S1.o.ndof S.nj = a.ndof := by rw [eS]; exact Function.update_self ..
  have b1 : S1.nb = S.nb := by rw [eS]
  have j1 : S1.nj = S.nj + 1 := by rw [eS]
  have k1 : Keeps S S1 := by
    rw [eS]
    refine ⟨le_rfl, Nat.le_succ _, le_rfl, le_rfl, rfl, fun _ _ => ⟨rfl, rfl⟩, ?_, fun _ _ => ⟨rfl, rfl, rfl⟩, fun _ _ => ⟨rfl, rfl, rfl⟩,
      fun _ h => h, fun _ h => h⟩
    intro f hf
    simp only
    rw [Function.update_of_ne (by omega), Function.update_of_ne (by omega), Function.update_of_ne (by omega)]
    exact ⟨rfl, rfl, rfl⟩
  have wb : S1.w.body = S.w.body := by rw [eS]
  have wj : ∀ k, k ≠ S.nj → S1.w.joint k = S.w.joint k := by intro k hk; rw [eS]; exact Function.update_of_ne hk _ _
  have wn : S1.w.joint S.nj = {} := by rw [eS]; exact Function.update_self _ _ _
  have eo : ∀ f, S1.o.bodyOf f = S.o.bodyOf f := by intro f; rw [eS]; cases f <;> rfl
  have ep : S1.bposeOf = S.bposeOf := by rw [eS]; funext f; cases f <;> rfl
  have wg : S1.w.ground = S.w.ground := k1.ground
  have hp : (S1.w.body (S1.o.bodyOf f1)).parent = none := by
    rw [wb, eo]; exact h.parent_none _ h1.1 h1.2 hc
  obtain ⟨w', e, eg, ej, ef0, ef1, epar, ech, hkn, hk0, hk1, esh, _, _⟩ := addLink1_effect (f0 := f0) (j := S.nj) hp
  have r2 : Runs (Build.link f0 S.nj f1) S1 () { S1 with w := w' } := by
    have : addLink S1.o S1.w [.frame f0, .joint S.nj, .frame f1] = (w', .ok ()) := by
      unfold addLink
      simp only [wn, List.length_nil, Nat.zero_mod, and_self, if_true, e, gt_iff_lt, lt_irrefl, if_false]
    unfold Runs Build.link; rw [this]
  have hgm : S.w.ground < m := h.low _ List.mem_cons_self
  have hFb : ∀ b ∈ F.bodies, w'.body b = S.w.body b := by
    intro b hb
    have hlt := h.low b (List.mem_cons_of_mem _ hb)
    have hne : b ≠ S.w.ground := by rintro rfl; exact (List.nodup_cons.mp h.bnodup).1 hb
    rw [← wb]
    apply bodyObj_ext
    · rw [epar, if_neg]; rw [eo]; have := h1.1; omega
    · rw [ech, if_neg]; rw [eo]; rcases h0 with h0 | h0
      · rw [h0]; exact hne
      · omega
  have ksub : ∀ f ∈ S1.w.subframes, f ∈ w'.subframes := fun f hf => hkn (.sub f) hf
  have k2 : Keeps S1 { S1 with w := w' } := keeps_world eg ksub (fun s hs => by rw [esh]; exact hs)
  have k12 := k1.trans k2
  have hF : ∀ j ∈ joints F, j < S.nj := fun j hj => by have := h.lowj j hj; rw [h.nj]; omega
  refine ⟨S1, { S1 with w := w' }, r1, r2, ?_, k12, ja, jn, eo f0, eo f1, ep, by rw [eS], by rw [eS]⟩
  have lt := fun l hl => h.lt_nj (l := l) hl
  have bnew : ∀ l ∈ Ls ++ [(f0, S.nj, f1)], l ∈ Ls ∨ l = (f0, S.nj, f1) := by intro l hl; simpa using hl
  have gg : ({ S1 with w := w' } : RS).w.ground = S.w.ground := by change w'.ground = _; rw [eg, wg]
  have gk : ∀ b, (w'.body b).children = (S.w.body b).children ++ (if b = S.o.bodyOf f0 then [S.nj] else []) := by
    intro b
    rw [ech, wb, eo]
    split <;> simp
  have flt : ∀ b, List.map (fun l : FrameRef × ℕ × FrameRef => l.2.1) ((Ls ++ [(f0, S.nj, f1)]).filter fun l => S1.o.bodyOf l.1 = b) =
      ((Ls.filter fun l => S.o.bodyOf l.1 = b).map fun l => l.2.1) ++ (if b = S.o.bodyOf f0 then [S.nj] else []) := by
    intro b
    simp only [eo]
    rw [List.filter_append, List.map_append]
    by_cases hq : b = S.o.bodyOf f0
    · rw [if_pos hq]; simp [hq]
    · rw [if_neg hq]; simp [Ne.symm hq]
  refine ⟨?_, ?_, ?_, ?_, h.jnodup, ?_, h.lowj, ?_, ?_, h.le, b1.trans h.nb, ?_, ?_, ?_, ?_, ?_, ?_, ?_, ?_, ?_, ?_, ?_⟩
  · rw [gg]
    refine h.unfolds.congr hFb ?_ (fun l _ => ⟨eo _, eo _⟩)
    intro k hk
    have := hF k hk
    change w'.joint k = _
    rw [ej k (by omega), wj k (by omega)]
  · rw [gg]
    change (w'.body S.w.ground).parent = none
    rw [epar, if_neg, wb]
    · exact h.root
    · rw [eo]; have := h1.1; omega
  · rw [gg]
    change (w'.body S.w.ground).children = js0 ++ List.map _ (List.filter (fun l : FrameRef × ℕ × FrameRef => decide (S1.o.bodyOf l.1 = S.w.ground)) _)
    rw [gk, h.kids, flt, List.append_assoc]
  · rw [gg]; exact h.bnodup
  · rw [gg]; exact h.low
  · intro l hl; exact ⟨k12.old (h.oldF l hl).1, k12.old (h.oldF l hl).2⟩
  · intro j hj
    obtain ⟨q1, _, q2⟩ := k12.joint j (hF j hj)
    rw [q1, q2]; exact h.ndofF j hj
  · change S1.nj = _; rw [j1, h.nj]; simp; omega
  · rw [List.map_append, h.nums, List.length_append, List.length_singleton, List.range'_concat, h.nj]; simp
  · intro l hl
    rcases bnew l hl with hl | rfl
    · exact ⟨k12.old (h.old l hl).1, k12.old (h.old l hl).2⟩
    · exact ⟨k12.old o0, k12.old o1⟩
  · intro l hl
    rw [gg]
    change S1.o.bodyOf l.1 = _ ∨ m ≤ S1.o.bodyOf l.1 ∧ S1.o.bodyOf l.1 < n
    rw [eo]
    rcases bnew l hl with hl | rfl
    · exact h.ends0 l hl
    · exact h0
  · intro l hl
    change m ≤ S1.o.bodyOf l.2.2 ∧ S1.o.bodyOf l.2.2 < n
    rw [eo]
    rcases bnew l hl with hl | rfl
    · exact h.ends1 l hl
    · exact h1
  · intro l hl
    change (w'.joint l.2.1).frame0 = _ ∧ (w'.joint l.2.1).frame1 = _
    rcases bnew l hl with hl | rfl
    · have : l.2.1 ≠ S.nj := by have := lt l hl; omega
      rw [ej _ this, wj _ this]; exact h.frames l hl
    · exact ⟨ef0, ef1⟩
  · intro l hl
    change Known w' _ ∧ Known w' _
    rcases bnew l hl with hl | rfl
    · exact ⟨(h.known l hl).1.mono k12.subframes, (h.known l hl).2.mono k12.subframes⟩
    · exact ⟨hk0, hk1⟩
  · intro b hb1 hb2
    change (w'.body b).children = List.map _ (List.filter (fun l : FrameRef × ℕ × FrameRef => decide (S1.o.bodyOf l.1 = b)) _)
    rw [gk, flt, h.children b hb1 hb2]
  · intro b hb1 hb2 hb3
    change (w'.body b).parent = none
    rw [epar, if_neg, wb]
    · refine h.parent_none b hb1 hb2 ?_
      intro l hl
      have := hb3 l (List.mem_append_left _ hl)
      change S1.o.bodyOf l.2.2 ≠ b at this
      rwa [eo] at this
    · have := hb3 (f0, S.nj, f1) (by simp)
      exact fun e => this e.symm
  · intro l hl
    change (w'.body (S1.o.bodyOf l.2.2)).parent = _
    rw [epar]
    simp only [eo]
    rcases bnew l hl with hl | rfl
    · rw [if_neg (hc l hl), wb]; exact h.parent l hl
    · rw [if_pos rfl]
  · intro l hl
    change S1.o.ndof l.2.1 = (S1.jattr l.2.1).ndof
    rcases bnew l hl with hl | rfl
    · obtain ⟨q1, _, q2⟩ := k1.joint l.2.1 (lt l hl)
      rw [q1, q2]; exact h.ndof l hl
    · rw [ja, jd]

lemma Unfolds.appendTree {o : Objs} {w : World} {b js js' F G} (h : Unfolds o w b js F) (h' : Unfolds o w b js' G) :
    Unfolds o w b (js ++ js') (F.append G) := by
  induction h with
  | nil => exact h'
  | cons g0 g1 gb gp gch gsib _ ihs => exact .cons g0 g1 gb gp gch (ihs h')

/-- If every link starts at the ground or where another link ends, and there is no cycle, then the world is a tree: `F`, and below the ground a
tree made of exactly these links. -/
lemma Web.good (h : Web m n j0 F js0 S Ls) {rank : ℕ → ℕ}
    (hrank : ∀ l ∈ Ls, S.o.bodyOf l.1 = S.w.ground ∨ rank (S.o.bodyOf l.1) < rank (S.o.bodyOf l.2.2))
    (hall : ∀ l ∈ Ls, S.o.bodyOf l.1 = S.w.ground ∨ ∃ l' ∈ Ls, S.o.bodyOf l'.2.2 = S.o.bodyOf l.1) :
    ∃ G, Good S (F.append G) ∧ G.links.Perm Ls ∧ (∀ b, b ∈ G.bodies ↔ ∃ l ∈ Ls, S.o.bodyOf l.2.2 = b) := by
  classical
  have hgm : S.w.ground < m := h.low _ List.mem_cons_self
  let w : World := { S.w with body := fun b => if b = S.w.ground then { children := (Ls.filter fun l => S.o.bodyOf l.1 = S.w.ground).map fun l => l.2.1 }
                                else if m ≤ b ∧ b < n then S.w.body b else {}
                              joint := fun j => if j ∈ Ls.map (fun l => l.2.1) then S.w.joint j else {} }
  have wg : (w.body S.w.ground).children = (Ls.filter fun l => S.o.bodyOf l.1 = S.w.ground).map fun l => l.2.1 := by
    simp [w]
  have wgp : (w.body S.w.ground).parent = none := by simp [w]
  have wb : ∀ b, m ≤ b ∧ b < n → w.body b = S.w.body b := fun b hb => by
    simp only [w]; rw [if_neg (by omega), if_pos hb]
  have wb' : ∀ b, b ≠ S.w.ground → ¬ (m ≤ b ∧ b < n) → w.body b = {} := fun b hb hb' => by
    simp only [w]; rw [if_neg hb, if_neg hb']
  have wj : ∀ l ∈ Ls, w.joint l.2.1 = S.w.joint l.2.1 := fun l hl => if_pos (List.mem_map_of_mem (f := fun l : FrameRef × ℕ × FrameRef => l.2.1) hl)
  have kids' : ∀ b, b = S.w.ground ∨ m ≤ b ∧ b < n → (w.body b).children = (Ls.filter fun l => S.o.bodyOf l.1 = b).map fun l => l.2.1 := by
    rintro b (rfl | hb)
    · exact wg
    · rw [wb b hb, h.children b hb.1 hb.2]
  have kid : ∀ b j, j ∈ (w.body b).children ↔ ∃ l ∈ Ls, l.2.1 = j ∧ S.o.bodyOf l.1 = b := by
    intro b j
    by_cases hb : b = S.w.ground ∨ m ≤ b ∧ b < n
    · rw [kids' b hb]
      simp only [List.mem_map, List.mem_filter, decide_eq_true_eq]
      constructor
      · rintro ⟨l, ⟨h1, h2⟩, h3⟩; exact ⟨l, h1, h3, h2⟩
      · rintro ⟨l, h1, h3, h2⟩; exact ⟨l, ⟨h1, h2⟩, h3⟩
    · rw [wb' b (fun e => hb (.inl e)) (fun e => hb (.inr e))]
      simp only [List.not_mem_nil, false_iff]
      rintro ⟨l, hl, _, e⟩
      exact hb (e ▸ h.ends0 l hl)
  have par : ∀ b j, (w.body b).parent = some j ↔ ∃ l ∈ Ls, l.2.1 = j ∧ S.o.bodyOf l.2.2 = b := by
    intro b j
    by_cases hb : m ≤ b ∧ b < n
    · rw [wb b hb]
      constructor
      · intro hp
        by_cases hq : ∃ l ∈ Ls, S.o.bodyOf l.2.2 = b
        · obtain ⟨l, hl, e⟩ := hq
          have := h.parent l hl
          rw [e, hp] at this; injection this with this
          exact ⟨l, hl, this.symm, e⟩
        · push Not at hq
          rw [h.parent_none b hb.1 hb.2 hq] at hp; exact absurd hp (by simp)
      · rintro ⟨l, hl, rfl, rfl⟩; exact h.parent l hl
    · have : (w.body b).parent = none := by
        by_cases e : b = S.w.ground
        · rw [e, wgp]
        · rw [wb' b e hb]
      rw [this]
      constructor
      · intro hp; exact absurd hp (by simp)
      · rintro ⟨l, hl, _, e⟩; exact absurd (e ▸ h.ends1 l hl) hb
  have hnd : (Ls.map (fun l => l.2.1)).Nodup := by rw [h.nums]; exact List.nodup_range'
  have hg : GInv S.o w := by
    refine ⟨?_, ?_, ?_, ⟨Ls.map (fun l => l.2.1), ?_⟩, wgp, ?_⟩
    · intro b j hj
      obtain ⟨l, hl, rfl, rfl⟩ := (kid b j).mp hj
      exact ⟨l.1, l.2.2, by rw [wj l hl]; exact (h.frames l hl).1, by rw [wj l hl]; exact (h.frames l hl).2, rfl, (par _ _).mpr ⟨l, hl, rfl, rfl⟩⟩
    · intro b j hj
      obtain ⟨l, hl, rfl, rfl⟩ := (par b j).mp hj
      exact ⟨l.1, l.2.2, by rw [wj l hl]; exact (h.frames l hl).1, by rw [wj l hl]; exact (h.frames l hl).2, rfl, (kid _ _).mpr ⟨l, hl, rfl, rfl⟩⟩
    · intro b
      by_cases hb : b = S.w.ground ∨ m ≤ b ∧ b < n
      · rw [kids' b hb]
        exact hnd.sublist ((List.filter_sublist (l := Ls)).map _)
      · rw [wb' b (fun e => hb (.inl e)) (fun e => hb (.inr e))]; simp
    · intro j hj
      by_contra hc
      exact hj (by rw [show w.joint j = {} from if_neg hc])
    · intro b j hj f hf
      obtain ⟨l, hl, rfl, rfl⟩ := (kid b j).mp hj
      rw [wj l hl, (h.frames l hl).1, (h.frames l hl).2] at hf
      rcases hf with hf | hf <;> injection hf with hf <;> subst hf
      · exact (h.known l hl).1.mono (fun _ h => h)
      · exact (h.known l hl).2.mono (fun _ h => h)
  obtain ⟨G, hG⟩ := hg.isTree
  have reach : ∀ l ∈ Ls, ∃ p, RPath S.o w p (S.o.bodyOf l.1) := by
    have : ∀ k, ∀ l ∈ Ls, rank (S.o.bodyOf l.1) = k → ∃ p, RPath S.o w p (S.o.bodyOf l.1) := by
      intro k
      induction k using Nat.strong_induction_on with
      | _ k ih =>
        intro l hl hk
        rcases hall l hl with e | ⟨l', hl', e⟩
        · rw [e]; exact ⟨[], .root⟩
        · have st : ∀ p, RPath S.o w p (S.o.bodyOf l'.1) → ∃ p, RPath S.o w p (S.o.bodyOf l.1) := by
            intro p hp
            rw [← e]
            exact ⟨_, .step hp ((kid _ _).mpr ⟨l', hl', rfl, rfl⟩) (by rw [wj l' hl']; exact (h.frames l' hl').2)⟩
          rcases hrank l' hl' with e' | e'
          · exact st [] (by rw [e']; exact .root)
          · rw [e, hk] at e'
            obtain ⟨p, hp⟩ := ih _ e' l' hl' rfl
            exact st p hp
    exact fun l hl => this _ l hl rfl
  have hN : ∀ b, b ∈ S.w.ground :: G.bodies ↔ b = S.w.ground ∨ ∃ l ∈ Ls, S.o.bodyOf l.2.2 = b := by
    intro b
    rw [show S.w.ground = w.ground from rfl, hG.mem_iff hg]
    constructor
    · rintro ⟨p, hp⟩
      cases p with
      | nil => exact .inl hp.nil_inv
      | cons j p =>
        obtain ⟨b', f, _, hj, hf, rfl⟩ := hp.cons_inv
        obtain ⟨l, hl, rfl, rfl⟩ := (kid _ _).mp hj
        rw [wj l hl, (h.frames l hl).2] at hf; injection hf with hf; subst hf
        exact .inr ⟨l, hl, rfl⟩
    · rintro (rfl | ⟨l, hl, rfl⟩)
      · exact ⟨[], .root⟩
      · obtain ⟨p, hp⟩ := reach l hl
        exact ⟨_, .step hp ((kid _ _).mpr ⟨l, hl, rfl, rfl⟩) (by rw [wj l hl]; exact (h.frames l hl).2)⟩
  have hN' : ∀ b, b ∈ G.bodies ↔ ∃ l ∈ Ls, S.o.bodyOf l.2.2 = b := by
    intro b
    have hb := (List.nodup_cons.mp hG.bodies_nodup).1
    constructor
    · intro hm
      rcases (hN b).mp (List.mem_cons_of_mem _ hm) with e | e
      · rw [e] at hm; exact absurd hm hb
      · exact e
    · rintro ⟨l, hl, e⟩
      rcases List.mem_cons.mp ((hN b).mpr (.inr ⟨l, hl, e⟩)) with e' | e'
      · have := (h.ends1 l hl).1; omega
      · exact e'
  have lmem : ∀ l, l ∈ G.links ↔ l ∈ Ls := by
    intro l
    constructor
    · intro hl
      obtain ⟨a1, a2, a3⟩ := hG.unfolds.links_mem l hl
      have : ∃ b, l.2.1 ∈ (w.body b).children := by
        rcases a3 with a3 | ⟨c, _, a3⟩
        · exact ⟨_, a3⟩
        · exact ⟨_, a3⟩
      obtain ⟨b, hb⟩ := this
      obtain ⟨l', hl', e, _⟩ := (kid _ _).mp hb
      have e1 := (h.frames l' hl').1
      have e2 := (h.frames l' hl').2
      rw [← wj l' hl', e, a1] at e1
      rw [← wj l' hl', e, a2] at e2
      injection e1 with e1; injection e2 with e2
      have : l = l' := by
        obtain ⟨x, y, z⟩ := l; obtain ⟨x', y', z'⟩ := l'
        simp only at e e1 e2
        rw [e, e1, e2]
      rw [this]; exact hl'
    · intro hl
      have hk := (kid _ _).mpr ⟨l, hl, rfl, rfl⟩
      have : ∃ l' ∈ G.links, l'.2.1 = l.2.1 := by
        apply hG.unfolds.links_of
        rcases hall l hl with e | e
        · left; rw [e] at hk; exact hk
        · right; exact ⟨_, (hN' _).mpr e, hk⟩
      obtain ⟨l', hl', e⟩ := this
      obtain ⟨a1, a2, _⟩ := hG.unfolds.links_mem l' hl'
      rw [e, wj l hl] at a1 a2
      rw [(h.frames l hl).1] at a1
      rw [(h.frames l hl).2] at a2
      injection a1 with a1; injection a2 with a2
      have : l = l' := by
        obtain ⟨x, y, z⟩ := l; obtain ⟨x', y', z'⟩ := l'
        simp only at e a1 a2
        rw [e, a1, a2]
      rw [this]; exact hl'
  have hGj : ∀ j ∈ joints G, j0 ≤ j ∧ j < S.nj := by
    intro j hj
    obtain ⟨l, hl, rfl⟩ := List.mem_map.mp hj
    have : l.2.1 ∈ Ls.map (fun l => l.2.1) := List.mem_map_of_mem (f := fun l : FrameRef × ℕ × FrameRef => l.2.1) ((lmem l).mp hl)
    rw [h.nums, List.mem_range'_1] at this
    rw [h.nj]; omega
  have hGb : ∀ b ∈ G.bodies, m ≤ b ∧ b < n := by
    intro b hb
    obtain ⟨l, hl, rfl⟩ := (hN' b).mp hb
    exact h.ends1 l hl
  have joi : joints (F.append G) = joints F ++ joints G := by rw [joints, Forest.links_append, List.map_append]; rfl
  refine ⟨G, ⟨⟨?_, h.root, ?_, ?_⟩, ?_, ?_, ?_, ?_, ?_⟩, ?_, hN'⟩
  · rw [h.kids]
    refine Unfolds.appendTree h.unfolds ?_
    have hu := hG.unfolds
    rw [show w.ground = S.w.ground from rfl, wg] at hu
    refine hu.congr ?_ ?_ (fun _ _ => ⟨rfl, rfl⟩)
    · intro c hc
      exact (wb c (hGb c hc)).symm
    · intro j hj
      obtain ⟨l, hl, rfl⟩ := List.mem_map.mp hj
      exact (wj l ((lmem l).mp hl)).symm
  · rw [Forest.bodies_append, ← List.cons_append, List.nodup_append]
    refine ⟨h.bnodup, (List.nodup_cons.mp hG.bodies_nodup).2, ?_⟩
    rintro x hx y hy rfl
    have := h.low x hx
    have := hGb x hy
    omega
  · rw [joi, List.nodup_append]
    refine ⟨h.jnodup, hG.joints_nodup, ?_⟩
    rintro x hx y hy rfl
    have := h.lowj x hx
    have := hGj x hy
    omega
  · rw [h.nb]; have := h.le; omega
  · intro b hb
    rw [Forest.bodies_append, List.mem_append] at hb
    rw [h.nb]
    rcases hb with hb | hb
    · have := h.low b (List.mem_cons_of_mem _ hb); have := h.le; omega
    · exact (hGb b hb).2
  · intro l hl
    rw [Forest.links_append, List.mem_append] at hl
    rcases hl with hl | hl
    · exact h.oldF l hl
    · exact h.old l ((lmem l).mp hl)
  · intro j hj
    rw [joi, List.mem_append] at hj
    rcases hj with hj | hj
    · have := h.lowj j hj; rw [h.nj]; omega
    · exact (hGj j hj).2
  · intro j hj
    rw [joi, List.mem_append] at hj
    rcases hj with hj | hj
    · exact h.ndofF j hj
    · obtain ⟨l, hl, rfl⟩ := List.mem_map.mp hj
      exact h.ndof l ((lmem l).mp hl)
  · rw [List.perm_ext_iff_of_nodup (List.Nodup.of_map _ hG.joints_nodup) (List.Nodup.of_map _ hnd)]
    exact lmem

end

end Arboris
