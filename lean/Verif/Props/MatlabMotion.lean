import Verif.Proofs.HingeChain
import Verif.Props.MatlabHuman

/-!
# C116: a robot made ready for Matlab moves as the robot it was
-/

namespace Arboris
open Graph Spec Build Matlab Matrix

/-! ### specification -/

/-- the dofs of the joints are numbered in the order of the tree (as `World.init` does: C30) -/
def Spec.NumberedIn (S : RS) (F : Forest (FrameRef × ℕ × FrameRef) ℕ) : Prop :=
  ∀ pre j post, joints F = pre ++ j :: post → (S.w.joint j).dof = some ((pre.map S.o.ndof).sum, (pre.map S.o.ndof).sum + S.o.ndof j)

/-- the states are states of joints of the same class -/
def Spec.sameClass : JAttr → JAttr → Prop
  | .lin k _ _, .lin k' _ _ => k = k'
  | .free _ _, .free _ _ => True
  | .fixed, .fixed => True
  | _, _ => False

/-- each coordinate of a joint of several rotations, with its velocity, on a hinge of its own -/
def Spec.spread : JAttr → List JAttr
  | .lin .RzRyRx q dq => [.lin .Rz (fun _ => q (0 : Fin 3)) (fun _ => dq (0 : Fin 3)), .lin .Ry (fun _ => q (1 : Fin 3)) (fun _ => dq (1 : Fin 3)),
    .lin .Rx (fun _ => q (2 : Fin 3)) (fun _ => dq (2 : Fin 3))]
  | .lin .RzRy q dq => [.lin .Rz (fun _ => q (0 : Fin 2)) (fun _ => dq (0 : Fin 2)), .lin .Ry (fun _ => q (1 : Fin 2)) (fun _ => dq (1 : Fin 2))]
  | .lin .RzRx q dq => [.lin .Rz (fun _ => q (0 : Fin 2)) (fun _ => dq (0 : Fin 2)), .lin .Rx (fun _ => q (1 : Fin 2)) (fun _ => dq (1 : Fin 2))]
  | .lin .RyRx q dq => [.lin .Ry (fun _ => q (0 : Fin 2)) (fun _ => dq (0 : Fin 2)), .lin .Rx (fun _ => q (1 : Fin 2)) (fun _ => dq (1 : Fin 2))]
  | a => [a]

/-- the joint of the link, or the chain that has replaced it, is in the same state -/
def Spec.SameStates (att att' : ℕ → JAttr) (l : FrameRef × ℕ × FrameRef) : Option (List (FrameRef × ℕ × FrameRef)) → Prop
  | none => att' l.2.1 = att l.2.1
  | some L => (L.map fun x => att' x.2.1) = spread (att l.2.1)

/-! ### the tree -/

lemma Forest.map_spine {o : Objs} {f : FrameRef × ℕ × FrameRef → Link} : ∀ (L : List (FrameRef × ℕ × FrameRef)) (hne : L ≠ []) (ch sib) {n : ℕ} (s : BodyDyn n),
    (∀ x ∈ updateDynamic (L.foldl (fun d x => dynStep d (f x)) s) (ch.map f id), x ∈ updateDynamic s ((spine o L ch sib).map f id)) ∧
    (∀ x ∈ updateDynamic s (sib.map f id), x ∈ updateDynamic s ((spine o L ch sib).map f id)) ∧
    (o.bodyOf (L.getLast hne).2.2, L.foldl (fun d x => dynStep d (f x)) s) ∈ updateDynamic s ((spine o L ch sib).map f id)
  | [], hne, _, _, _, _ => absurd rfl hne
  | [x], _, ch, sib, n, s => by simp +contextual [spine, Forest.map, updateDynamic]
  | x :: y :: L, _, ch, sib, n, s => by
    obtain ⟨h1, -, h3⟩ := Forest.map_spine (o := o) (f := f) (y :: L) (by simp) ch .nil (dynStep s (f x))
    simp only [spine, Forest.map, updateDynamic, List.mem_cons, List.mem_append, id_eq]
    refine ⟨fun z hz => .inr (.inl (h1 z hz)), fun z hz => .inr (.inr hz), .inr (.inl ?_)⟩
    rw [List.getLast_cons (by simp)]
    exact h3

/-- what one link becomes -/
def Spec.MovesAs (S S' : RS) (att att' : ℕ → JAttr) (l : FrameRef × ℕ × FrameRef) : Option (List (FrameRef × ℕ × FrameRef)) → Prop
  | none => S'.linkWith att' l = S.linkWith att l
  | some L => ∀ (n : ℕ) (s : BodyDyn n), AlikeDyn (dynStep s (S.linkWith att l)) (L.foldl (fun d x => dynStep d (S'.linkWith att' x)) s)

lemma moves_foldl {n : ℕ} {f : FrameRef × ℕ × FrameRef → Link} : ∀ (L : List (FrameRef × ℕ × FrameRef)) {s s' : BodyDyn n}, AlikeDyn s s' →
    AlikeDyn (L.foldl (fun d x => dynStep d (f x)) s) (L.foldl (fun d x => dynStep d (f x)) s')
  | [], _, _, h => h
  | x :: L, _, _, h => moves_foldl L (alikeDyn_step h (f x))

lemma moves {S S' : RS} {att att' : ℕ → JAttr} {C : ℕ → Option (List (FrameRef × ℕ × FrameRef))} {F : Forest (FrameRef × ℕ × FrameRef) ℕ}
    (hm : ∀ l ∈ F.links, MovesAs S S' att att' l (C l.2.1)) (hC : EndsRight C F) (hb : Labelled S'.o F) {n : ℕ} {s s' : BodyDyn n} (h : AlikeDyn s s') :
    ∀ x ∈ updateDynamic s (F.map (S.linkWith att) id), ∃ d', (x.1, d') ∈ updateDynamic s' ((replaceAll S'.o C F).map (S'.linkWith att') id) ∧ AlikeDyn x.2 d' := by
  induction F generalizing s s' with
  | nil => intro x hx; simp [Forest.map, updateDynamic] at hx
  | cons l b ch sib ih1 ih2 =>
    have hl := hm l (by simp [Forest.links])
    have i1 := fun {s s'} => @ih1 (fun l' h' => hm l' (by simp [Forest.links, h'])) (fun l' h' => hC l' (by simp [Forest.links, h'])) (fun l' b' ch' h' => hb l' b' ch' (.down h')) s s'
    have i2 := fun {s s'} => @ih2 (fun l' h' => hm l' (by simp [Forest.links, h'])) (fun l' h' => hC l' (by simp [Forest.links, h'])) (fun l' b' ch' h' => hb l' b' ch' (.right h')) s s'
    have hlb : b = S'.o.bodyOf l.2.2 := hb _ _ _ (.here ..)
    intro x hx
    simp only [Forest.map, updateDynamic, id_eq, List.mem_cons, List.mem_append] at hx
    cases hc : C l.2.1 with
    | none =>
      rw [hc] at hl
      simp only [MovesAs] at hl
      simp only [replaceAll, hc, Forest.map, updateDynamic, id_eq, hl]
      rcases hx with rfl | hx | hx
      · exact ⟨_, List.mem_cons_self, alikeDyn_step h _⟩
      · obtain ⟨d', m, a⟩ := i1 (alikeDyn_step h _) x hx
        exact ⟨d', List.mem_cons_of_mem _ (List.mem_append_left _ m), a⟩
      · obtain ⟨d', m, a⟩ := i2 h x hx
        exact ⟨d', List.mem_cons_of_mem _ (List.mem_append_right _ m), a⟩
    | some L =>
      rw [hc] at hl
      obtain ⟨hne, he⟩ := hC l (by simp [Forest.links]) L hc
      simp only [MovesAs] at hl
      simp only [replaceAll, hc]
      obtain ⟨m1, m2, m3⟩ := Forest.map_spine (o := S'.o) (f := S'.linkWith att') L hne (replaceAll S'.o C ch) (replaceAll S'.o C sib) s'
      have ha := (hl _ s).trans (moves_foldl L (f := S'.linkWith att') h)
      rcases hx with rfl | hx | hx
      · exact ⟨_, by rw [hlb, ← he]; exact m3, ha⟩
      · obtain ⟨d', m, a⟩ := i1 ha x hx
        exact ⟨d', m1 _ m, a⟩
      · obtain ⟨d', m, a⟩ := i2 h x hx
        exact ⟨d', m2 _ m, a⟩

/-! ### the numbers of the dofs -/

lemma starts {S S' : RS} {C : ℕ → Option (List (FrameRef × ℕ × FrameRef))} {F : Forest (FrameRef × ℕ × FrameRef) ℕ} (hN : NumberedIn S F)
    (hne : ∀ l ∈ F.links, C l.2.1 ≠ some []) (hN' : NumberedIn S' (replaceAll S'.o C F))
    (hd : ∀ x ∈ F.links, (((C x.2.1).getD [x]).map fun y => S'.o.ndof y.2.1).sum = S.o.ndof x.2.1) {l} (hl : l ∈ F.links) :
    ∃ st, (S.w.joint l.2.1).dof = some (st, st + S.o.ndof l.2.1) ∧ ∀ P x Q, (C l.2.1).getD [l] = P ++ x :: Q →
      (S'.w.joint x.2.1).dof = some (st + (P.map fun y => S'.o.ndof y.2.1).sum, st + (P.map fun y => S'.o.ndof y.2.1).sum + S'.o.ndof x.2.1) := by
  obtain ⟨A, B, e⟩ := List.append_of_mem hl
  have hA : ∀ A : List (FrameRef × ℕ × FrameRef), (∀ x ∈ A, x ∈ F.links) →
      (((A.flatMap fun x => (C x.2.1).getD [x]).map fun y => y.2.1).map S'.o.ndof).sum = ((A.map fun x => x.2.1).map S.o.ndof).sum := by
    intro A
    induction A with
    | nil => intro _; rfl
    | cons x A ih =>
      intro h
      have := hd x (h x (by simp))
      simp only [List.flatMap_cons, List.map_append, List.sum_append, List.map_cons, List.sum_cons, ih fun y hy => h y (by simp [hy])]
      rw [← this, List.map_map]
      rfl
  refine ⟨_, hN (A.map fun x => x.2.1) l.2.1 (B.map fun x => x.2.1) (by simp [joints, e]), ?_⟩
  intro P x Q hP
  have := hN' ((A.flatMap fun x => (C x.2.1).getD [x]).map (fun y => y.2.1) ++ P.map fun y => y.2.1) x.2.1
    (Q.map (fun y => y.2.1) ++ (B.flatMap fun x => (C x.2.1).getD [x]).map fun y => y.2.1) (by
      rw [joints, replaceAll_links _ hne, e]
      simp [hP])
  rw [this, List.map_append, List.sum_append, hA A (fun x hx => by rw [e]; simp [hx])]
  simp only [List.map_map]
  rfl

lemma hingeChain_two {m : ℝ} {S S' : RS} {name : Option String} {f0 f1 : FrameRef} {k k' : LinKind} {L} (h : HingeChain m S S' name f0 [k, k'] f1 L) :
    ∃ x y b, L = [x, y] ∧ x.1 = f0 ∧ x.2.2 = .body b ∧ y.1 = .body b ∧ y.2.2 = f1 := by
  match L, h with
  | [x, y], h =>
    obtain ⟨e1, -, b, e2, -, e3, e4, -⟩ := h
    exact ⟨x, y, b, rfl, e1, e2, e3, e4⟩
  | [_], h => obtain ⟨_, _, _, _, _, h⟩ := h; exact h.elim
  | _ :: _ :: _ :: _, h => obtain ⟨_, _, _, _, _, _, _, _, _, _, h⟩ := h; exact h.elim

lemma hingeChain_three {m : ℝ} {S S' : RS} {name : Option String} {f0 f1 : FrameRef} {k k' k'' : LinKind} {L} (h : HingeChain m S S' name f0 [k, k', k''] f1 L) :
    ∃ x y z b b', L = [x, y, z] ∧ x.1 = f0 ∧ x.2.2 = .body b ∧ y.1 = .body b ∧ y.2.2 = .body b' ∧ z.1 = .body b' ∧ z.2.2 = f1 := by
  match L, h with
  | x :: L, h =>
    obtain ⟨e1, -, b, e2, -, h'⟩ := h
    obtain ⟨y, z, b', rfl, e3, e4, e5, e6⟩ := hingeChain_two h'
    exact ⟨x, y, z, b, b', rfl, e1, e2, e3, e4, e5, e6⟩

/-- the chain of a joint of several rotations -/
lemma chain_moves {S S1 S' : RS} {att att' : ℕ → JAttr} {l : FrameRef × ℕ × FrameRef} {m : ℝ} {X} (hs : Split m S S1 l X) {L} (hX : X = some L)
    (hc : sameClass (att l.2.1) (S.jattr l.2.1)) (ht : SameStates att att' l X) (h0 : S'.bposeOf l.1 = S.bposeOf l.1) (h1 : S'.bposeOf l.2.2 = S.bposeOf l.2.2)
    (r0 : IsRigid (S.bposeOf l.1)) (r1 : IsRigid (S.bposeOf l.2.2)) {st : ℕ} (hst : (S.w.joint l.2.1).dof = some (st, st + S.o.ndof l.2.1))
    (hx : ∀ x ∈ L, S'.o.ndof x.2.1 = 1)
    (hst' : ∀ P x Q, L = P ++ x :: Q → (S'.w.joint x.2.1).dof = some (st + (P.map fun y => S'.o.ndof y.2.1).sum, st + (P.map fun y => S'.o.ndof y.2.1).sum + S'.o.ndof x.2.1)) :
    MovesAs S S' att att' l X := by
  subst hX
  have hlw : S.linkWith att l = lk (att l.2.1) st (S.bposeOf l.1) (S.bposeOf l.2.2) := by
    unfold RS.linkWith
    rw [hst]
    rfl
  have hlw' : ∀ x ∈ L, ∀ i, (S'.w.joint x.2.1).dof = some (i, i + 1) → S'.linkWith att' x = lk (att' x.2.1) i (S'.bposeOf x.1) (S'.bposeOf x.2.2) := by
    intro x _ i h
    unfold RS.linkWith
    rw [h]
    rfl
  unfold Split at hs
  simp only [SameStates] at ht
  simp only [MovesAs]
  intro n s
  rw [hlw]
  cases hj : S.jattr l.2.1 with
  | free H T => rw [hj] at hs; simp [rotations] at hs
  | fixed => rw [hj] at hs; simp [rotations] at hs
  | lin k q0 dq0 =>
    rw [hj] at hs hc
    cases ha : att l.2.1 with
    | free H T => rw [ha] at hc; simp [sameClass] at hc
    | fixed => rw [ha] at hc; simp [sameClass] at hc
    | lin k' q dq =>
      rw [ha] at hc ht
      simp only [sameClass] at hc
      subst hc
      cases k' <;> simp only [rotations, Option.some.injEq, exists_eq_left', reduceCtorEq] at hs
      · -- RzRyRx
        obtain ⟨x, y, z, b, b', rfl, e1, e2, e3, e4, e5, e6⟩ := hingeChain_three hs
        simp only [spread, List.map_cons, List.map_nil, List.cons.injEq, and_true] at ht
        have d1 := hst' [] x [y, z] rfl
        have d2 := hst' [x] y [z] rfl
        have d3 := hst' [x, y] z [] rfl
        rw [hx x (by simp)] at d1
        rw [hx y (by simp)] at d2
        rw [hx z (by simp)] at d3
        simp only [List.map_cons, List.map_nil, List.sum_cons, List.sum_nil, add_zero, hx x (by simp), hx y (by simp)] at d1 d2 d3
        simp only [List.foldl_cons, List.foldl_nil]
        rw [hlw' x (by simp) _ d1, hlw' y (by simp) _ d2, hlw' z (by simp) _ d3, ht.1, ht.2.1, ht.2.2, e1, e2, e3, e4, e5, e6, h0, h1]
        exact merge_RzRyRx s q dq st r0 r1
      · -- RzRy
        obtain ⟨x, y, b, rfl, e1, e2, e3, e4⟩ := hingeChain_two hs
        simp only [spread, List.map_cons, List.map_nil, List.cons.injEq, and_true] at ht
        have d1 := hst' [] x [y] rfl
        have d2 := hst' [x] y [] rfl
        rw [hx x (by simp)] at d1
        rw [hx y (by simp)] at d2
        simp only [List.map_cons, List.map_nil, List.sum_cons, List.sum_nil, add_zero, hx x (by simp)] at d1 d2
        simp only [List.foldl_cons, List.foldl_nil]
        rw [hlw' x (by simp) _ d1, hlw' y (by simp) _ d2, ht.1, ht.2, e1, e2, e3, e4, h0, h1]
        exact merge_RzRy s q dq st r0 r1
      · -- RzRx
        obtain ⟨x, y, b, rfl, e1, e2, e3, e4⟩ := hingeChain_two hs
        simp only [spread, List.map_cons, List.map_nil, List.cons.injEq, and_true] at ht
        have d1 := hst' [] x [y] rfl
        have d2 := hst' [x] y [] rfl
        rw [hx x (by simp)] at d1
        rw [hx y (by simp)] at d2
        simp only [List.map_cons, List.map_nil, List.sum_cons, List.sum_nil, add_zero, hx x (by simp)] at d1 d2
        simp only [List.foldl_cons, List.foldl_nil]
        rw [hlw' x (by simp) _ d1, hlw' y (by simp) _ d2, ht.1, ht.2, e1, e2, e3, e4, h0, h1]
        exact merge_RzRx s q dq st r0 r1
      · -- RyRx
        obtain ⟨x, y, b, rfl, e1, e2, e3, e4⟩ := hingeChain_two hs
        simp only [spread, List.map_cons, List.map_nil, List.cons.injEq, and_true] at ht
        have d1 := hst' [] x [y] rfl
        have d2 := hst' [x] y [] rfl
        rw [hx x (by simp)] at d1
        rw [hx y (by simp)] at d2
        simp only [List.map_cons, List.map_nil, List.sum_cons, List.sum_nil, add_zero, hx x (by simp)] at d1 d2
        simp only [List.foldl_cons, List.foldl_nil]
        rw [hlw' x (by simp) _ d1, hlw' y (by simp) _ d2, ht.1, ht.2, e1, e2, e3, e4, h0, h1]
        exact merge_RyRx s q dq st r0 r1

/-! ### there are such states -/

lemma rotations_spread {a a0 : JAttr} (h : sameClass a a0) {ks} (hr : rotations a0 = some ks) :
    (spread a).length = ks.length ∧ ∀ i (hi : i < ks.length), ∃ v, (spread a)[i]? = some v ∧ sameClass v (.lin ks[i] 0 0) := by
  cases a0 with
  | free H T => simp [rotations] at hr
  | fixed => simp [rotations] at hr
  | lin k q dq =>
    cases a with
    | free H T => simp [sameClass] at h
    | fixed => simp [sameClass] at h
    | lin k' q' dq' =>
      simp only [sameClass] at h
      subst h
      cases k' <;> simp only [rotations, Option.some.injEq, reduceCtorEq] at hr
      all_goals
        subst hr
        refine ⟨rfl, ?_⟩
        intro i hi
        simp only [List.length_cons, List.length_nil] at hi
        interval_cases i <;> exact ⟨_, rfl, rfl⟩

lemma hingeChain_kinds {m : ℝ} {S S' : RS} {name : Option String} : ∀ {ks f0 f1 L}, HingeChain m S S' name f0 ks f1 L →
    L.length = ks.length ∧ ∀ (i : ℕ) (x : FrameRef × ℕ × FrameRef) (k : LinKind), L[i]? = some x → ks[i]? = some k → S'.jattr x.2.1 = .lin k 0 0 := by
  intro ks
  induction ks with
  | nil => intro f0 f1 L h; simp [HingeChain] at h
  | cons k ks ih =>
    intro f0 f1 L h
    cases L with
    | nil => cases ks <;> simp [HingeChain] at h
    | cons x xs =>
      cases ks with
      | nil =>
        cases xs with
        | nil =>
          refine ⟨rfl, ?_⟩
          intro i z kz hz hk
          cases i with
          | zero =>
            simp at hz hk
            subst hz hk
            exact h.2.2.2.2.1
          | succ i => simp at hz
        | cons y ys =>
          obtain ⟨_, _, b, _, _, h'⟩ := h
          simp [HingeChain] at h'
      | cons k' ks =>
        cases xs with
        | nil =>
          obtain ⟨_, _, b, _, _, h'⟩ := h
          cases ks <;> simp [HingeChain] at h'
        | cons y ys =>
          obtain ⟨e, hj, b, eb, nb, h'⟩ := h
          obtain ⟨i1, i2⟩ := ih h'
          refine ⟨by simpa using i1, ?_⟩
          intro i z kz hz hk
          cases i with
          | zero =>
            simp at hz hk
            subst hz hk
            exact hj.2.2.1
          | succ i => exact i2 i z kz (by simpa using hz) (by simpa using hk)

lemma states_exist {C : ℕ → Option (List (FrameRef × ℕ × FrameRef))} {A : List (FrameRef × ℕ × FrameRef)} (att : ℕ → JAttr)
    (hnd : ((A.flatMap fun x => (C x.2.1).getD [x]).map fun y => y.2.1).Nodup) (hlen : ∀ x ∈ A, ∀ L, C x.2.1 = some L → L.length = (spread (att x.2.1)).length) :
    ∃ att', ∀ x ∈ A, SameStates att att' x (C x.2.1) := by
  induction A with
  | nil => exact ⟨att, by simp⟩
  | cons x A ih =>
    simp only [List.flatMap_cons, List.map_append] at hnd
    obtain ⟨n1, n2, n3⟩ := List.nodup_append.mp hnd
    obtain ⟨att', h⟩ := ih n2 fun y hy => hlen y (by simp [hy])
    have key : ∀ (js : List ℕ) (vs : List JAttr), js.Nodup → js.length = vs.length → ∃ f : ℕ → JAttr, js.map f = vs ∧ ∀ j ∉ js, f j = att' j := by
      intro js
      induction js with
      | nil => intro vs _ e; exact ⟨att', by simpa using (List.length_eq_zero_iff.mp e.symm).symm, fun _ _ => rfl⟩
      | cons j js ih =>
        intro vs hn e
        cases vs with
        | nil => simp at e
        | cons v vs =>
          obtain ⟨f, h1, h2⟩ := ih vs (List.nodup_cons.mp hn).2 (by simpa using e)
          refine ⟨Function.update f j v, ?_, ?_⟩
          · rw [List.map_cons, Function.update_self, ← h1]
            congr 1
            refine List.map_congr_left fun i hi => Function.update_of_ne ?_ ..
            rintro rfl
            exact (List.nodup_cons.mp hn).1 hi
          · intro i hi
            simp only [List.mem_cons, not_or] at hi
            rw [Function.update_of_ne hi.1, h2 i hi.2]
    obtain ⟨f, h1, h2⟩ := key (((C x.2.1).getD [x]).map fun y => y.2.1) (match C x.2.1 with | none => [att x.2.1] | some _ => spread (att x.2.1)) n1 (by
      cases e : C x.2.1 with
      | none => simp
      | some L => simpa using hlen x (by simp) L e)
    refine ⟨f, ?_⟩
    intro y hy
    rcases List.mem_cons.mp hy with rfl | hy
    · cases e : C y.2.1 with
      | none =>
        rw [e] at h1
        simpa [SameStates] using h1
      | some L =>
        rw [e] at h1
        simp only [Option.getD_some, List.map_map] at h1
        exact h1
    · have hout : ∀ z ∈ (C y.2.1).getD [y], f z.2.1 = att' z.2.1 := by
        intro z hz
        apply h2
        intro hz'
        exact n3 _ hz' _ (List.mem_map.mpr ⟨z, List.mem_flatMap.mpr ⟨y, hy, hz⟩, rfl⟩) rfl
      have := h y hy
      cases e : C y.2.1 with
      | none =>
        rw [e] at this hout
        simp only [SameStates] at this ⊢
        rw [hout y (by simp), this]
      | some L =>
        rw [e] at this hout
        simp only [SameStates] at this ⊢
        rw [← this]
        exact List.map_congr_left fun z hz => hout z hz

section
variable {S : RS} {F G : Forest (FrameRef × ℕ × FrameRef) ℕ} {c : Conf} {lim con b : ℕ} {l : FrameRef × ℕ × FrameRef}

/-- C116.  A robot of free root moves, once converted (and `World.init` called), as it did before: if each hinge of a chain
gets the coordinate and the velocity of the joint of several rotations it stands for, and the other joints are in the
same states, then every body that was in the world has the same pose, the same jacobian (the dofs keep their numbers)
and the same twist as before; and the hinges can always be put in such states. -/
theorem C116_motion (hg : Good S F) (hn : Node F l b G) (hroot : S.o.bodyOf l.1 = S.w.ground) (hm : 0 ≤ c.base_mass)
    (hlim : 3 * depth F + 3 ≤ lim) (hfree : ∃ H T, S.jattr l.2.1 = .free H T) (hN : NumberedIn S F)
    (hrig : ∀ x ∈ F.links, IsRigid (S.bposeOf x.1) ∧ IsRigid (S.bposeOf x.2.2)) :
    ∃ S1 S' C, Runs (convertRobot c lim con l.2.1) S () S1 ∧ Runs (Build.init lim) S1 () S' ∧ Good S' (replaceAll S'.o C F) ∧
      (∀ l' ∈ G.links, Split c.base_mass S S1 l' (C l'.2.1)) ∧ S'.w.ndof = ((joints F).map S.o.ndof).sum ∧
      (∀ att : ℕ → JAttr, (∀ x ∈ F.links, sameClass (att x.2.1) (S.jattr x.2.1)) → ∃ att', (∀ x ∈ F.links, SameStates att att' x (C x.2.1)) ∧
        ∀ j ∈ joints (replaceAll S'.o C F), sameClass (att' j) (S'.jattr j)) ∧
      ∀ (n : ℕ) (att att' : ℕ → JAttr), (∀ x ∈ F.links, sameClass (att x.2.1) (S.jattr x.2.1)) → (∀ x ∈ F.links, SameStates att att' x (C x.2.1)) →
        ∀ x d, (x, d) ∈ worldDynamic n (F.map (S.linkWith att) id) →
          ∃ d', (x, d') ∈ worldDynamic n ((replaceAll S'.o C F).map (S'.linkWith att') id) ∧ d'.pose = d.pose ∧ d'.jac = d.jac ∧ d'.twist = d.twist := by
  obtain ⟨H, T, hf⟩ := hfree
  obtain ⟨S1, C, r, g, k, fl, sp, oth, ft, -⟩ := C115_convert (con := con) hg hn hroot hm hlim (fun h => absurd hf (h H T))
  unfold Floating at fl
  rw [hf] at fl
  have hC : EndsRight C F := by
    intro x hx L e
    by_cases h1 : x = l
    · rw [h1, fl] at e; cases e
    by_cases h2 : x ∈ G.links
    · exact ((split_facts (sp x h2)).1 L e).2.1
    · rw [oth x hx h1 h2] at e; cases e
  have hlen : ∀ x ∈ F.links, ∀ L, C x.2.1 = some L → L.length ≤ 3 := by
    intro x hx L e
    by_cases h1 : x = l
    · rw [h1, fl] at e; cases e
    by_cases h2 : x ∈ G.links
    · exact ((split_facts (sp x h2)).1 L e).1
    · rw [oth x hx h1 h2] at e; cases e
  have hne : ∀ x ∈ F.links, C x.2.1 ≠ some [] := fun x hx e => by obtain ⟨h, _⟩ := hC x hx [] e; exact h rfl
  have hdep := replaceAll_depth S1.o (C := C) hlen
  obtain ⟨w', r2, g2, k2, -, hnd, hnum⟩ := init_runs g (lim := lim) (by omega)
  have kk := k.trans k2
  have hlinks := replaceAll_links S1.o (C := C) (F := F) hne
  have hmem : ∀ x ∈ F.links, ∀ L, C x.2.1 = some L → ∀ y ∈ L, y.2.1 ∈ joints (replaceAll S1.o C F) := by
    intro x hx L e y hy
    rw [joints, hlinks]
    exact List.mem_map.mpr ⟨y, List.mem_flatMap.mpr ⟨x, hx, by rw [e]; exact hy⟩, rfl⟩
  have hone : ∀ x ∈ G.links, ∀ L, C x.2.1 = some L → ∀ y ∈ L, S1.o.ndof y.2.1 = 1 := by
    intro x hx L e y hy
    rw [g.ndof _ (hmem x ((node_mem hn).2.2 x hx) L e y hy)]
    obtain ⟨v, hv⟩ := Option.isSome_iff_exists.mp (((split_facts (sp x hx)).1 L e).2.2.1 y hy)
    revert hv
    cases S1.jattr y.2.1 with
    | free H T => simp [hinge]
    | fixed => simp [hinge]
    | lin k q dq => cases k <;> simp [hinge, JAttr.ndof, LinKind.ndof]
  have hd : ∀ x ∈ F.links, (((C x.2.1).getD [x]).map fun y => S1.o.ndof y.2.1).sum = S.o.ndof x.2.1 := by
    intro x hx
    have hj := hg.joints _ (List.mem_map.mpr ⟨x, hx, rfl⟩)
    cases e : C x.2.1 with
    | none => simpa using (k.joint _ hj).2.2
    | some L =>
      have h2 : x ∈ G.links := by
        by_contra h2
        by_cases h1 : x = l
        · rw [h1, fl] at e; cases e
        · rw [oth x hx h1 h2] at e; cases e
      simp only [Option.getD_some]
      rw [List.map_congr_left (hone x h2 L e), List.map_const', List.sum_replicate, smul_eq_mul, mul_one, ((split_facts (sp x h2)).1 L e).2.2.2,
        hg.ndof _ (List.mem_map.mpr ⟨x, hx, rfl⟩)]
  have hb : ∀ f, Old S f → RS.bposeOf { S1 with w := w' } f = S.bposeOf f := by
    intro f ho
    cases f with
    | body _ => rfl
    | sub f => exact (k.sub f ho).1
  refine ⟨S1, _, C, r, r2, g2, sp, ?_, ?_, ?_⟩
  · rw [hnd, ndofSum, joints, hlinks, joints]
    have : ∀ A : List (FrameRef × ℕ × FrameRef), (∀ x ∈ A, x ∈ F.links) →
        (((A.flatMap fun x => (C x.2.1).getD [x]).map fun y => y.2.1).map S1.o.ndof).sum = ((A.map fun x => x.2.1).map S.o.ndof).sum := by
      intro A
      induction A with
      | nil => intro _; rfl
      | cons x A ih =>
        intro h
        have := hd x (h x (by simp))
        simp only [List.flatMap_cons, List.map_append, List.sum_append, List.map_cons, List.sum_cons, ih fun y hy => h y (by simp [hy])]
        rw [← this, List.map_map]
        rfl
    exact this _ fun _ h => h
  · intro att hcl
    have hsome : ∀ x ∈ F.links, ∀ L, C x.2.1 = some L → ∃ ks, rotations (S.jattr x.2.1) = some ks ∧ L.length = ks.length ∧
        ∀ (i : ℕ) (z : FrameRef × ℕ × FrameRef) (k : LinKind), L[i]? = some z → ks[i]? = some k → S1.jattr z.2.1 = .lin k 0 0 := by
      intro x hx L e
      have hG : x ∈ G.links := by
        by_contra h2
        by_cases h1 : x = l
        · rw [h1, fl] at e; cases e
        · rw [oth x hx h1 h2] at e; cases e
      have hs := sp x hG
      unfold Split at hs
      split at hs
      · rw [hs] at e; cases e
      · rename_i ks hks
        obtain ⟨L', e', hc⟩ := hs
        rw [e] at e'
        cases e'
        exact ⟨ks, hks, hingeChain_kinds hc⟩
    have hnd := g.tree.joints_nodup
    rw [joints, hlinks] at hnd
    obtain ⟨att', h⟩ := states_exist att hnd (by
      intro x hx L e
      obtain ⟨ks, h1, h2, -⟩ := hsome x hx L e
      rw [h2, (rotations_spread (hcl x hx) h1).1])
    refine ⟨att', h, ?_⟩
    intro j hj
    change j ∈ joints (replaceAll S1.o C F) at hj
    rw [joints, hlinks, List.mem_map] at hj
    obtain ⟨z, hz, rfl⟩ := hj
    obtain ⟨x, hx, hz⟩ := List.mem_flatMap.mp hz
    have hx' := h x hx
    change sameClass _ (S1.jattr z.2.1)
    cases e : C x.2.1 with
    | none =>
      rw [e] at hz hx'
      obtain rfl := List.mem_singleton.mp hz
      simp only [SameStates] at hx'
      rw [hx', (k.joint _ (hg.joints _ (List.mem_map.mpr ⟨z, hx, rfl⟩))).1]
      exact hcl z hx
    | some L =>
      rw [e] at hz hx'
      simp only [SameStates] at hx'
      simp only [Option.getD_some] at hz
      obtain ⟨ks, h1, h2, h3⟩ := hsome x hx L e
      obtain ⟨i, hi, rfl⟩ := List.getElem_of_mem hz
      obtain ⟨v, hv, hk⟩ := (rotations_spread (hcl x hx) h1).2 i (by omega)
      rw [h3 i L[i] (ks[i]'(by omega)) (List.getElem?_eq_getElem hi) (List.getElem?_eq_getElem (by omega))]
      rw [← hx', List.getElem?_map, List.getElem?_eq_getElem hi] at hv
      simp only [Option.map_some, Option.some.injEq] at hv
      rw [hv]
      exact hk
  · intro n att att' hcl hss x d hx
    refine moves (S' := { S1 with w := w' }) ?_ hC ?_ (AlikeDyn.refl _) (x, d) hx
    · intro y hy
      have hj := hg.joints _ (List.mem_map.mpr ⟨y, hy, rfl⟩)
      obtain ⟨st, hst, hst'⟩ := starts (S' := { S1 with w := w' }) hN hne hnum hd hy
      cases e : C y.2.1 with
      | none =>
        have h1 := hst' [] y [] (by rw [e]; rfl)
        have h2 := hss y hy
        rw [e] at h2
        simp only [SameStates] at h2
        simp only [MovesAs]
        unfold RS.linkWith
        rw [h2, hb _ (hg.frames y hy).1, hb _ (hg.frames y hy).2, h1, hst]
        simp
      | some L =>
        have hG : y ∈ G.links := by
          by_contra h2
          by_cases h1 : y = l
          · rw [h1, fl] at e; cases e
          · rw [oth y hy h1 h2] at e; cases e
        have hs := sp y hG
        have h2 := hss y hy
        rw [e] at hs h2
        exact chain_moves (S' := { S1 with w := w' }) hs rfl (hcl y hy) h2 (hb _ (hg.frames y hy).1) (hb _ (hg.frames y hy).2) (hrig y hy).1 (hrig y hy).2 hst (hone y hG L e)
          (fun P z Q eL => hst' P z Q (by rw [e]; exact eL))
    · intro l' b' ch' hn'
      have := unfolds_labelled hg.tree.unfolds _ _ _ hn'
      rw [this]
      exact (k.bodyOf (hg.frames l' (node_mem hn').1).2).symm

end
/-- C116 on a human: in a new world, `add_human36`, `convert_robot` and `init` give a world of 42 dofs in which, in every state of the
joints, the segments are where those of the human are in that state, and move as they do. -/
theorem C116_human36 {lim con : ℕ} (h6 : 21 ≤ lim) (height : ℝ) {mass : ℝ} (hm : 0 ≤ mass) (anat : Option AnatLengths) (pre : String)
    {L : AnatLengths} (hL : L = anat.getD (anatLengths height)) (hlegs : L.yfootL + L.ytibiaL + L.yfemurL = L.yfootR + L.ytibiaR + L.yfemurR) :
    ∃ S S1 S' C, Runs (addHuman36 lim height mass anat pre) RS.new () S ∧ Runs (convertRobot {} lim con RS.new.nj) S () S1 ∧
      Runs (Build.init lim) S1 () S' ∧ S'.w.ndof = 42 ∧
      ∀ (n : ℕ) (att att' : ℕ → JAttr), (∀ x ∈ (skeleton 1 0 0).links, sameClass (att x.2.1) (S.jattr x.2.1)) →
        (∀ x ∈ (skeleton 1 0 0).links, SameStates att att' x (C x.2.1)) → ∀ x d, (x, d) ∈ worldDynamic n ((skeleton 1 0 0).map (S.linkWith att) id) →
          ∃ d', (x, d') ∈ worldDynamic n ((replaceAll S'.o C (skeleton 1 0 0)).map (S'.linkWith att') id) ∧ d'.pose = d.pose ∧ d'.jac = d.jac ∧ d'.twist = d.twist := by
  obtain ⟨S, r1, g1, k1, hh⟩ := C72_build good_new (lim := lim) (by simp [depth]; omega) (by omega) height hm anat pre hL hlegs
  have g1 : Good S (skeleton 1 0 0) := g1
  have hat : ∀ k (hk : k < 17), S.jattr (RS.new.nj + k) = ((humanLinks L)[k]'hk).2.2.1 := fun k hk => (hh.links k hk hk).joint
  have hnd : ∀ k (hk : k < 17), S.o.ndof (RS.new.nj + k) = segmentDofs.getD k 0 := fun k hk => by
    rw [(hh.links k hk hk).ndof]
    interval_cases k <;> rfl
  have hlk : (skeleton 1 0 0).links = (List.range 17).map fun k => (FrameRef.sub (0 + k), RS.new.nj + k, FrameRef.body (1 + k)) := rfl
  have hj : joints (skeleton 1 0 0) = (List.range 17).map (RS.new.nj + ·) := rfl
  have hnds : (joints (skeleton 1 0 0)).map S.o.ndof = segmentDofs := by
    rw [hj, List.map_map]
    exact (List.map_congr_left (g := fun k => segmentDofs.getD k 0) (fun k hk => hnd k (List.mem_range.mp hk))).trans rfl
  have hroot : S.o.bodyOf (.sub RS.new.ns) = S.w.ground := by
    have := (hh.links 0 (show 0 < 17 by norm_num) (show 0 < 17 by norm_num)).onBody
    rw [k1.ground]
    exact this
  obtain ⟨S1, S', C, r2, r3, -, -, hn, -, hmv⟩ := C116_motion (con := con) (c := {}) (lim := lim) (l := (.sub 0, 0, .body 1)) g1 (.here ..) hroot (by norm_num)
    (by rw [depth_skeleton]; omega) ⟨1, 0, hat 0 (by norm_num)⟩ (by
      intro p j q e
      have hp : p.length < 17 := by
        have := congrArg List.length e
        rw [hj] at this
        simp at this
        omega
      have ej : j = RS.new.nj + p.length := by
        have := congrArg (fun l => l[p.length]?) e
        simp only [hj, List.getElem?_map, List.getElem?_range hp, Option.map_some, List.getElem?_append_right (le_refl _), Nat.sub_self, List.getElem?_cons_zero] at this
        exact (Option.some.inj this).symm
      have ep : p.map S.o.ndof = segmentDofs.take p.length := by
        rw [← hnds, e]
        simp
      rw [ej, hh.dofs _ hp, ep, hnd _ hp]
      have h0 : ndofSum RS.new.o (joints .nil) = 0 := rfl
      rw [h0]
      generalize p.length = k at hp
      interval_cases k <;> rfl) (by
      intro x hx
      rw [hlk, List.mem_map] at hx
      obtain ⟨k, hk, rfl⟩ := hx
      have hk' := List.mem_range.mp hk
      refine ⟨?_, isRigid_one⟩
      have := (hh.links k hk' hk').pose
      have e : RS.new.ns + k = 0 + k := rfl
      rw [e] at this
      change IsRigid (S.bpose (0 + k))
      rw [this]
      exact C01_transl ..)
  exact ⟨S, S1, S', C, r1, r2, r3, by rw [hn, hnds]; rfl, hmv⟩

end Arboris
