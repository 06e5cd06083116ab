import Verif.Spec.Graft
import Verif.Props.Replace
import Verif.Props.Dofs

/-!
# C80: `add_link` with a fresh joint and a fresh body hangs exactly one leaf
-/

namespace Arboris
open Graph Spec

section forest
variable {L B : Type}

lemma Spec.Forest.append_nil (F : Forest L B) : F.append .nil = F := by
  induction F with
  | nil => rfl
  | cons l b ch sib _ ih => simp [Forest.append, ih]

lemma Spec.Forest.append_assoc (F G H : Forest L B) : (F.append G).append H = F.append (G.append H) := by
  induction F with
  | nil => rfl
  | cons l b ch sib _ ih => simp [Forest.append, ih]

lemma Spec.Forest.snoc_eq (F : Forest L B) (l : L) (c : B) : F.snoc l c = F.append (.chain [(l, c)]) := by
  induction F with
  | nil => rfl
  | cons l b ch sib _ ih => simp [Forest.snoc, Forest.append, ih]

lemma Spec.Forest.bodies_append (F G : Forest L B) : (F.append G).bodies = F.bodies ++ G.bodies := by
  induction F with
  | nil => rfl
  | cons l b ch sib _ ih => simp [Forest.append, Forest.bodies, ih]

lemma Spec.Forest.links_append (F G : Forest L B) : (F.append G).links = F.links ++ G.links := by
  induction F with
  | nil => rfl
  | cons l b ch sib _ ih => simp [Forest.append, Forest.links, ih]

lemma Spec.Forest.paths_append (F G : Forest L B) : (F.append G).paths = F.paths ++ G.paths := by
  induction F with
  | nil => rfl
  | cons l b ch sib _ ih => simp [Forest.append, Forest.paths, ih]

lemma Spec.Forest.bodies_chain (xs : List (L × B)) : (Forest.chain xs).bodies = xs.map Prod.snd := by
  induction xs with
  | nil => rfl
  | cons x xs ih => simp [Forest.chain, Forest.bodies, ih]

lemma Spec.Forest.links_chain (xs : List (L × B)) : (Forest.chain xs).links = xs.map Prod.fst := by
  induction xs with
  | nil => rfl
  | cons x xs ih => simp [Forest.chain, Forest.links, ih]

/-- the path to the k-th body of a chain is made of its first k+1 links -/
lemma Spec.Forest.paths_chain (xs : List (L × B)) : (Forest.chain xs).paths =
    (List.range xs.length).filterMap fun k => xs[k]?.map fun x => (x.2, (xs.take (k + 1)).map Prod.fst) := by
  induction xs with
  | nil => rfl
  | cons x xs ih =>
    simp only [Forest.chain, Forest.paths, ih, List.length_cons, List.range_succ_eq_map, List.append_nil]
    rw [List.filterMap_cons]
    simp only [List.getElem?_cons_zero, Option.map_some, List.take_succ_cons, List.take_zero, List.map_cons, List.map_nil]
    congr 1
    rw [List.filterMap_map, List.map_filterMap]
    apply List.filterMap_congr
    intro k _
    simp [Function.comp_def]

lemma Spec.Forest.mem_bodies_iff (F : Forest L B) (b : B) : b ∈ F.bodies ↔ ∃ p, (b, p) ∈ F.paths := by
  have : F.bodies = F.paths.map Prod.fst := by
    induction F with
    | nil => rfl
    | cons l b ch sib ih1 ih2 => simp [Forest.bodies, Forest.paths, ih1, ih2]
  rw [this, List.mem_map]
  constructor
  · rintro ⟨⟨a, p⟩, h, rfl⟩; exact ⟨p, h⟩
  · rintro ⟨p, h⟩; exact ⟨_, h, rfl⟩

variable [DecidableEq B]

lemma Spec.Forest.hang_notMem {F : Forest L B} {b : B} (h : b ∉ F.bodies) (l : L) (c : B) : F.hang b l c = F := by
  induction F with
  | nil => rfl
  | cons l' b' ch sib ih1 ih2 =>
    simp only [Forest.bodies, List.cons_append, List.mem_cons, List.mem_append, not_or] at h
    simp only [Forest.hang, if_neg (Ne.symm h.1), ih1 h.2.1, ih2 h.2.2]

lemma Spec.Forest.hang_append (F G : Forest L B) (b : B) (l : L) (c : B) :
    (F.append G).hang b l c = (F.hang b l c).append (G.hang b l c) := by
  induction F with
  | nil => rfl
  | cons l' b' ch sib _ ih => simp [Forest.append, Forest.hang, ih]

lemma Spec.Forest.hang_chain (xs : List (L × B)) (y : L × B) (l : L) (c : B) (h : y.2 ∉ xs.map Prod.snd) :
    (Forest.chain (xs ++ [y])).hang y.2 l c = .chain (xs ++ [y, (l, c)]) := by
  induction xs with
  | nil => simp [Forest.chain, Forest.hang, Forest.snoc]
  | cons x xs ih =>
    simp only [List.map_cons, List.mem_cons, not_or] at h
    simp only [List.cons_append, Forest.chain, Forest.hang, if_neg (Ne.symm h.1), ih h.2]

/-- the bodies, links and paths of a tree with a new leaf: those of the tree, and the new ones -/
lemma Spec.Forest.hang_perm {F : Forest L B} {b : B} {p : List L} (hn : F.bodies.Nodup) (hp : (b, p) ∈ F.paths) (l : L) (c : B) :
    (F.hang b l c).bodies.Perm (F.bodies ++ [c]) ∧ (F.hang b l c).links.Perm (F.links ++ [l]) ∧
    (F.hang b l c).paths.Perm (F.paths ++ [(c, p ++ [l])]) := by
  induction F generalizing p with
  | nil => simp [Forest.paths] at hp
  | cons l' b' ch sib ih1 ih2 =>
    simp only [Forest.bodies, List.cons_append] at hn
    obtain ⟨n1, n2⟩ := List.nodup_cons.mp hn
    obtain ⟨n3, n4, n5⟩ := List.nodup_append.mp n2
    simp only [List.mem_append, not_or] at n1
    simp only [Forest.paths, List.cons_append, List.mem_cons, List.mem_append] at hp
    rcases hp with hp | hp | hp
    · simp only [Prod.mk.injEq] at hp
      obtain ⟨rfl, rfl⟩ := hp
      simp only [Forest.hang, if_true, Forest.hang_notMem n1.1, Forest.hang_notMem n1.2, Forest.snoc_eq, Forest.bodies, Forest.links,
        Forest.paths, Forest.bodies_append, Forest.links_append, Forest.paths_append, Forest.chain, List.map_append, List.cons_append,
        List.append_assoc, List.map_nil, List.map_cons, List.append_nil, List.nil_append]
      refine ⟨?_, ?_, ?_⟩
      · exact ((List.perm_append_comm (l₁ := [c])).append_left _).cons _
      · exact ((List.perm_append_comm (l₁ := [l])).append_left _).cons _
      · exact ((List.perm_append_comm (l₁ := [_])).append_left _).cons _
    · obtain ⟨⟨b1, p1⟩, h1, e⟩ := List.mem_map.mp hp
      simp only [Prod.mk.injEq] at e
      obtain ⟨rfl, rfl⟩ := e
      have hb : b1 ∈ ch.bodies := (Forest.mem_bodies_iff ch b1).mpr ⟨_, h1⟩
      have hne : b' ≠ b1 := fun e => n1.1 (e ▸ hb)
      have hns : b1 ∉ sib.bodies := fun e => n5 b1 hb b1 e rfl
      obtain ⟨q1, q2, q3⟩ := ih1 n3 h1
      simp only [Forest.hang, if_neg hne, Forest.hang_notMem hns, Forest.bodies, Forest.links, Forest.paths, List.cons_append, List.append_assoc]
      refine ⟨?_, ?_, ?_⟩
      · refine List.Perm.cons _ ((q1.append_right _).trans ?_)
        rw [List.append_assoc]
        exact (List.perm_append_comm (l₁ := [c])).append_left _
      · refine List.Perm.cons _ ((q2.append_right _).trans ?_)
        rw [List.append_assoc]
        exact (List.perm_append_comm (l₁ := [l])).append_left _
      · refine List.Perm.cons _ (((q3.map _).append_right _).trans ?_)
        rw [List.map_append, List.append_assoc]
        exact (List.perm_append_comm (l₁ := [_])).append_left _
    · have hb : b ∈ sib.bodies := (Forest.mem_bodies_iff sib b).mpr ⟨_, hp⟩
      have hne : b' ≠ b := fun e => n1.2 (e ▸ hb)
      have hnc : b ∉ ch.bodies := fun e => n5 b e b hb rfl
      obtain ⟨q1, q2, q3⟩ := ih2 n4 hp
      simp only [Forest.hang, if_neg hne, Forest.hang_notMem hnc, Forest.bodies, Forest.links, Forest.paths, List.cons_append, List.append_assoc]
      exact ⟨(q1.append_left _).cons _, (q2.append_left _).cons _, (q3.append_left _).cons _⟩

end forest

/-- what `add_link` does to the objects -/
lemma addLink1_effect {o : Objs} {w : World} {f0 f1 : FrameRef} {j : ℕ} (hp : (w.body (o.bodyOf f1)).parent = none) :
    ∃ w', addLink1 o w f0 j f1 = (w', .ok ()) ∧ w'.ground = w.ground ∧
      (∀ k, k ≠ j → w'.joint k = w.joint k) ∧ (w'.joint j).frame0 = some f0 ∧ (w'.joint j).frame1 = some f1 ∧
      (∀ b, (w'.body b).parent = if b = o.bodyOf f1 then some j else (w.body b).parent) ∧
      (∀ b, (w'.body b).children = if b = o.bodyOf f0 then (w.body b).children ++ [j] else (w.body b).children) ∧
      (∀ f, Known w f → Known w' f) ∧ Known w' f0 ∧ Known w' f1 ∧ w'.shapes = w.shapes ∧ w'.constraints = w.constraints ∧
      w'.controllers = w.controllers := by
  refine ⟨_, by unfold Graph.addLink1; simp only; rw [if_pos (by simpa using hp)], ?_, ?_, ?_, ?_, ?_, ?_, ?_, ?_, ?_, ?_, ?_, ?_⟩
  · simp
  · intro k hk; simp [setFrames, hk]
  · simp [setFrames_frame0]
  · simp [setFrames_frame1]
  · intro b
    simp only [registerFrame_body]
    by_cases h1 : b = o.bodyOf f0
    · subst h1; simp [setChildren, setParent_parent]
    · simp [setChildren, h1, setParent_parent]
  · intro b
    simp only [registerFrame_body, setChildren_children, setParent_children, setFrames_body]
    split
    · subst_vars; rfl
    · rfl
  · intro f hf
    exact Known.mono (fun x hx => registerFrame_subset _ _ x (registerFrame_subset _ _ x hx)) hf
  · exact Known.mono (registerFrame_subset _ _) (registerFrame_known _ _)
  · exact registerFrame_known _ _
  all_goals cases f0 <;> cases f1 <;> rfl

lemma Spec.Unfolds.parent_some {o : Objs} {w : World} {b js F} (h : Unfolds o w b js F) : ∀ c ∈ F.bodies, (w.body c).parent ≠ none := by
  induction h with
  | nil => intro c hc; cases hc
  | @cons b k js f0 f1 ch sib h0 h1 hb hpar hch hsib ihc ihs =>
    intro c hc
    simp only [Forest.bodies, List.cons_append, List.mem_cons, List.mem_append] at hc
    rcases hc with rfl | hc | hc
    · rw [hpar]; simp
    · exact ihc c hc
    · exact ihs c hc

lemma Unfolds.snoc {o : Objs} {w : World} {b js F} (h : Unfolds o w b js F) {f0 f1 : FrameRef} {j : ℕ}
    (h0 : (w.joint j).frame0 = some f0) (h1 : (w.joint j).frame1 = some f1) (hb : o.bodyOf f0 = b)
    (hp : (w.body (o.bodyOf f1)).parent = some j) (hc : (w.body (o.bodyOf f1)).children = []) :
    Unfolds o w b (js ++ [j]) (F.snoc (f0, j, f1) (o.bodyOf f1)) := by
  induction h with
  | nil => exact .cons h0 h1 hb hp (by rw [hc]; exact .nil _) (.nil _)
  | cons g0 g1 gb gp gch gsib _ ihs => exact .cons g0 g1 gb gp gch (ihs hb)

/-- C80: on a world that is a tree, `add_link` with a fresh joint, between a frame of a body of the tree and a fresh
body, succeeds; the result is the same tree with one more leaf, after the other children of that body. -/
theorem C80_graft {o : Objs} {w : World} {F : Forest (FrameRef × ℕ × FrameRef) ℕ} (hF : IsTree o w F) {f0 f1 : FrameRef} {j : ℕ}
    (h0 : o.bodyOf f0 ∈ w.ground :: F.bodies) (hj : FreshJoint w j) (hc : FreshBody w (o.bodyOf f1)) :
    ∃ w', addLink o w [.frame f0, .joint j, .frame f1] = (w', .ok ()) ∧ w'.ground = w.ground ∧
      IsTree o w' (graft o w.ground F (f0, j, f1)) ∧
      (∀ b, b ≠ o.bodyOf f1 → FreshBody w b → b ≠ o.bodyOf f0 → FreshBody w' b) ∧ (∀ k, k ≠ j → FreshJoint w k → FreshJoint w' k) ∧
      (∀ f, Known w f → Known w' f) ∧ Known w' f0 ∧ Known w' f1 ∧
      w'.shapes = w.shapes ∧ w'.constraints = w.constraints ∧ w'.controllers = w.controllers := by
  obtain ⟨w', e, eg, ej, ej0, ej1, ep, ec, ek, ek0, ek1, esh⟩ := addLink1_effect (f0 := f0) (j := j) hc.2.1
  have hcF : o.bodyOf f1 ∉ F.bodies := fun h => hF.unfolds.parent_some _ h hc.2.1
  have hne : o.bodyOf f1 ≠ o.bodyOf f0 := by
    intro e
    rw [← e] at h0
    rcases List.mem_cons.mp h0 with h | h
    · exact hc.1 h
    · exact hcF h
  have hjF : j ∉ joints F := by
    intro h
    obtain ⟨g0, _, h, _⟩ := hF.unfolds.link h
    rw [hj.1] at h; cases h
  have hcp : (w'.body (o.bodyOf f1)).parent = some j := by rw [ep, if_pos rfl]
  have hcc : (w'.body (o.bodyOf f1)).children = [] := by rw [ec, if_neg hne, hc.2.2]
  have key : ∀ {b js G}, Unfolds o w b js G → j ∉ joints G → o.bodyOf f1 ∉ G.bodies →
      Unfolds o w' b js (G.hang (o.bodyOf f0) (f0, j, f1) (o.bodyOf f1)) := by
    intro b js G hG
    induction hG with
    | nil => intro _ _; exact .nil _
    | @cons b k js g0 g1 ch sib h0' h1' hb' hpar hch hsib ihc ihs =>
      intro hjG hcG
      simp only [joints, Forest.links, List.map_cons, List.cons_append, List.map_append, List.mem_cons, List.mem_append, not_or] at hjG
      simp only [Forest.bodies, List.cons_append, List.mem_cons, List.mem_append, not_or] at hcG
      have i1 := ihc hjG.2.1 hcG.2.1
      have i2 := ihs hjG.2.2 hcG.2.2
      have hk : w'.joint k = w.joint k := ej k (Ne.symm hjG.1)
      refine .cons (by rw [hk]; exact h0') (by rw [hk]; exact h1') hb' (by rw [ep, if_neg (Ne.symm hcG.1)]; exact hpar) ?_ i2
      rw [ec]
      by_cases hb : o.bodyOf g1 = o.bodyOf f0
      · rw [if_pos hb, if_pos hb]
        exact Unfolds.snoc i1 ej0 ej1 hb.symm hcp hcc
      · rw [if_neg hb, if_neg hb]; exact i1
  have hnb : (w.ground :: F.bodies ++ [o.bodyOf f1]).Nodup := by
    rw [List.nodup_append]
    refine ⟨hF.bodies_nodup, by simp, ?_⟩
    intro a ha b hb hab
    simp only [List.mem_singleton] at hb
    subst hab; subst hb
    rcases List.mem_cons.mp ha with h | h
    · exact hc.1 h
    · exact hcF h
  have hnj : (joints F ++ [j]).Nodup := by
    rw [List.nodup_append]
    exact ⟨hF.joints_nodup, by simp, by intro a ha b hb hab; simp only [List.mem_singleton] at hb; subst hab; subst hb; exact hjF ha⟩
  have hroot : (w'.body w'.ground).parent = none := by rw [eg, ep, if_neg (Ne.symm hc.1)]; exact hF.root
  refine ⟨w', ?_, eg, ?_, ?_, ?_, ek, ek0, ek1, esh⟩
  · simp [addLink, hj.1, hj.2, e]
  · by_cases hr : o.bodyOf f0 = w.ground
    · have hb0 : o.bodyOf f0 ∉ F.bodies := by rw [hr]; exact (List.nodup_cons.mp hF.bodies_nodup).1
      rw [graft, if_pos hr]
      have := key hF.unfolds hjF hcF
      rw [Forest.hang_notMem hb0] at this
      refine ⟨?_, hroot, ?_, ?_⟩
      · rw [eg, ec, if_pos hr.symm]
        exact Unfolds.snoc this ej0 ej1 hr hcp hcc
      · rw [Forest.snoc_eq, Forest.bodies_append, eg]
        simpa [Forest.chain, Forest.bodies] using hnb
      · rw [Forest.snoc_eq, joints, Forest.links_append, List.map_append]
        simpa [Forest.chain, Forest.links, joints] using hnj
    · rw [graft, if_neg hr]
      have hb0 : o.bodyOf f0 ∈ F.bodies := by
        rcases List.mem_cons.mp h0 with h | h
        · exact absurd h hr
        · exact h
      obtain ⟨p, hp⟩ := (Forest.mem_bodies_iff _ _).mp hb0
      obtain ⟨q1, q2, _⟩ := Forest.hang_perm (List.nodup_cons.mp hF.bodies_nodup).2 hp (f0, j, f1) (o.bodyOf f1)
      refine ⟨?_, hroot, ?_, ?_⟩
      · rw [eg, ec, if_neg (Ne.symm hr)]
        exact key hF.unfolds hjF hcF
      · rw [eg]; exact ((q1.cons _).nodup_iff).mpr hnb
      · have := q2.map (fun l => l.2.1)
        rw [List.map_append] at this
        exact this.nodup_iff.mpr hnj
  · intro b hb hf hb0
    refine ⟨by rw [eg]; exact hf.1, by rw [ep, if_neg hb]; exact hf.2.1, by rw [ec, if_neg hb0]; exact hf.2.2⟩
  · intro k hk hf
    rw [FreshJoint, ej k hk]; exact hf

/-- C80: bodies, links and paths after the call: those of before, the new body with its path. -/
theorem C80_paths {o : Objs} {w : World} {F : Forest (FrameRef × ℕ × FrameRef) ℕ} (hF : IsTree o w F) {f0 f1 : FrameRef} {j : ℕ} {p}
    (h0 : (o.bodyOf f0 = w.ground ∧ p = []) ∨ (o.bodyOf f0, p) ∈ F.paths) :
    (graft o w.ground F (f0, j, f1)).bodies.Perm (F.bodies ++ [o.bodyOf f1]) ∧
    (graft o w.ground F (f0, j, f1)).links.Perm (F.links ++ [(f0, j, f1)]) ∧
    (graft o w.ground F (f0, j, f1)).paths.Perm (F.paths ++ [(o.bodyOf f1, p ++ [(f0, j, f1)])]) := by
  obtain ⟨n1, n2⟩ := List.nodup_cons.mp hF.bodies_nodup
  rcases h0 with ⟨h0, rfl⟩ | h0
  · rw [graft, if_pos h0, Forest.snoc_eq, Forest.bodies_append, Forest.links_append, Forest.paths_append]
    simp [Forest.chain, Forest.bodies, Forest.links, Forest.paths]
  · have hr : o.bodyOf f0 ≠ w.ground := fun e => n1 (e ▸ (Forest.mem_bodies_iff _ _).mpr ⟨p, h0⟩)
    rw [graft, if_neg hr]
    exact Forest.hang_perm n2 h0 _ _

/-- each link starts at a body present when it is added, and ends at a new body with a new joint -/
def Spec.Hangs (o : Objs) (w : World) (B : List ℕ) : List (FrameRef × ℕ × FrameRef) → Prop
  | [] => True
  | l :: ls => o.bodyOf l.1 ∈ B ∧ FreshJoint w l.2.1 ∧ FreshBody w (o.bodyOf l.2.2) ∧ (∀ l' ∈ ls, l'.2.1 ≠ l.2.1) ∧
      (∀ l' ∈ ls, o.bodyOf l'.2.2 ≠ o.bodyOf l.2.2) ∧ Hangs o w (B ++ [o.bodyOf l.2.2]) ls

/-- C80: a sequence of such calls succeeds and hangs the bodies one after the other. -/
theorem C80_grafts {o : Objs} {lim : ℕ} (ls : List (FrameRef × ℕ × FrameRef)) : ∀ {w : World} {F : Forest (FrameRef × ℕ × FrameRef) ℕ},
    IsTree o w F → ∀ {B : List ℕ}, (∀ b, b ∈ B ↔ b ∈ w.ground :: F.bodies) → Hangs o w B ls →
    let w' := runAll o lim w (ls.map fun l => .addLink [.frame l.1, .joint l.2.1, .frame l.2.2])
    w'.ground = w.ground ∧ IsTree o w' (ls.foldl (graft o w.ground) F) ∧ (∀ l ∈ ls, Known w' l.1 ∧ Known w' l.2.2) ∧
      (∀ f, Known w f → Known w' f) := by
  induction ls with
  | nil => intro w F hF B _ _; exact ⟨rfl, hF, by simp, fun _ h => h⟩
  | cons l ls ih =>
    intro w F hF B hB ⟨a1, a2, a3, a4, a5, a6⟩
    obtain ⟨w', e, eg, ht, hfb, hfj, hk, hk0, hk1, _⟩ := C80_graft hF ((hB _).mp a1) a2 a3
    have hB' : ∀ b, b ∈ B ++ [o.bodyOf l.2.2] ↔ b ∈ w'.ground :: (graft o w.ground F l).bodies := by
      intro b
      have : ∃ p, (o.bodyOf l.1 = w.ground ∧ p = []) ∨ (o.bodyOf l.1, p) ∈ F.paths := by
        rcases List.mem_cons.mp ((hB _).mp a1) with h | h
        · exact ⟨[], .inl ⟨h, rfl⟩⟩
        · obtain ⟨p, hp⟩ := (Forest.mem_bodies_iff _ _).mp h
          exact ⟨p, .inr hp⟩
      obtain ⟨p, hp⟩ := this
      have := (C80_paths (j := l.2.1) (f1 := l.2.2) hF hp).1
      rw [eg, List.mem_cons, this.mem_iff, List.mem_append, hB, List.mem_cons, List.mem_append]
      tauto
    have hh : Hangs o w' (B ++ [o.bodyOf l.2.2]) ls := by
      have hmem : ∀ b ∈ B, ¬ FreshBody w b := by
        intro b hb hf
        rcases List.mem_cons.mp ((hB b).mp hb) with h | h
        · exact hf.1 h
        · exact hF.unfolds.parent_some b h hf.2.1
      clear ih
      clear hB'
      revert a6
      generalize B ++ [o.bodyOf l.2.2] = B'
      intro a6
      induction ls generalizing B' with
      | nil => trivial
      | cons m ms ihm =>
        obtain ⟨c1, c2, c3, c4, c5, c6⟩ := a6
        refine ⟨c1, hfj _ (a4 m List.mem_cons_self) c2, hfb _ (a5 m List.mem_cons_self) c3 ?_, c4, c5,
          ihm (fun l' h => a4 l' (List.mem_cons_of_mem _ h)) (fun l' h => a5 l' (List.mem_cons_of_mem _ h)) _ c6⟩
        intro e
        rw [e] at c3
        exact hmem _ a1 c3
    obtain ⟨r1, r2, r3, r4⟩ := ih (w := w') ht hB' hh
    have hrun : runAll o lim w ((l :: ls).map fun l => .addLink [.frame l.1, .joint l.2.1, .frame l.2.2]) =
        runAll o lim w' (ls.map fun l => .addLink [.frame l.1, .joint l.2.1, .frame l.2.2]) := by
      simp only [List.map_cons, runAll, List.foldl_cons, Op.run, e]
    rw [hrun]
    refine ⟨r1.trans eg, ?_, ?_, fun f h => r4 f (hk f h)⟩
    · rw [List.foldl_cons, ← eg]; rw [← eg] at r2; exact r2
    · intro l' hl'
      rcases List.mem_cons.mp hl' with rfl | hl'
      · exact ⟨r4 _ hk0, r4 _ hk1⟩
      · exact r3 l' hl'

/-- the hypotheses are met: on the world made of the ground alone, two bodies hung in a row, then a second child of the
ground -/
example : IsTree plainObjs (World.new 0) .nil ∧ Hangs plainObjs (World.new 0) [0]
    [(.body 0, 0, .body 1), (.body 1, 1, .body 2), (.body 0, 2, .body 3)] ∧
    ([(.body 0, 0, .body 1), (.body 1, 1, .body 2), (.body 0, 2, .body 3)] : List (FrameRef × ℕ × FrameRef)).foldl (graft plainObjs 0) .nil =
      .cons (.body 0, 0, .body 1) 1 (.cons (.body 1, 1, .body 2) 2 .nil .nil) (.cons (.body 0, 2, .body 3) 3 .nil .nil) := by
  refine ⟨⟨.nil _, rfl, by simp [Forest.bodies], by simp [joints, Forest.links]⟩, ?_, rfl⟩
  simp [Hangs, FreshJoint, FreshBody, World.new, plainObjs, Objs.bodyOf]

end Arboris
