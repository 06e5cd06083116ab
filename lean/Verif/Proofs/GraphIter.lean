import Verif.Proofs.Graph

/-! # Proofs about the object graph: iterators and histories -/

namespace Arboris
open Graph Spec

lemma mapM_ok_cons {α β : Type} (f : α → Except PyErr β) (a : α) (l : List α) (b : β) (bs : List β)
    (h : f a = .ok b) (hs : l.mapM f = .ok bs) : (a :: l).mapM f = .ok (b :: bs) := by
  rw [List.mapM_cons, h, hs]; rfl

lemma Unfolds.iterJoints_aux {o : Objs} {w : World} {b js F} (h : Unfolds o w b js F) (k : ℕ) (hk : depth F ≤ k) :
    ∃ ls, (js.mapM fun j => do
      let b' ← frame1Body o w j
      let l ← iterDescJoints o w k b'
      pure (j :: l)) = .ok ls ∧ ls.flatten = joints F := by
  induction h generalizing k with
  | nil => exact ⟨[], rfl, rfl⟩
  | @cons b j js f0 f1 ch sib h0 h1 hb hpar hch hsib ihc ihs =>
    simp only [depth] at hk
    obtain ⟨k', rfl⟩ : ∃ k', k = k' + 1 := ⟨k - 1, by omega⟩
    obtain ⟨lc, hc, ec⟩ := ihc k' (by omega)
    obtain ⟨ls, hs, es⟩ := ihs (k' + 1) (by omega)
    refine ⟨(j :: lc.flatten) :: ls, ?_, ?_⟩
    · refine mapM_ok_cons _ _ _ _ _ ?_ hs
      simp only [frame1Body, h1, bind, Except.bind] at hc ⊢
      rw [iterDescJoints]
      simp only [frame1Body, bind, Except.bind]
      rw [hc]
      rfl
    · simp only [joints, Forest.links] at ec es ⊢
      simp [ec, es]

lemma Unfolds.iterDescJoints {o : Objs} {w : World} {b F} (h : Unfolds o w b (w.body b).children F) {k : ℕ}
    (hk : depth F < k) : Graph.iterDescJoints o w k b = .ok (joints F) := by
  obtain ⟨k, rfl⟩ : ∃ k', k = k' + 1 := ⟨k - 1, by omega⟩
  obtain ⟨ls, hs, es⟩ := Unfolds.iterJoints_aux h k (by omega)
  rw [Graph.iterDescJoints, hs, ← es]
  rfl

lemma Unfolds.iterBodies_aux {o : Objs} {w : World} {b js F} (h : Unfolds o w b js F) (k : ℕ) (hk : depth F ≤ k) :
    ∃ bs ls, js.mapM (frame1Body o w) = .ok bs ∧
      (bs.mapM fun b' => do
        let l ← iterDescBodies o w k b'
        pure (b' :: l)) = .ok ls ∧ ls.flatten = F.bodies := by
  induction h generalizing k with
  | nil => exact ⟨[], [], rfl, rfl, rfl⟩
  | @cons b j js f0 f1 ch sib h0 h1 hb hpar hch hsib ihc ihs =>
    simp only [depth] at hk
    obtain ⟨k', rfl⟩ : ∃ k', k = k' + 1 := ⟨k - 1, by omega⟩
    obtain ⟨bc, lc, hc, hc', ec⟩ := ihc k' (by omega)
    obtain ⟨bs, ls, hs, hs', es⟩ := ihs (k' + 1) (by omega)
    refine ⟨o.bodyOf f1 :: bs, (o.bodyOf f1 :: lc.flatten) :: ls, ?_, ?_, ?_⟩
    · refine mapM_ok_cons _ _ _ _ _ ?_ hs
      simp only [frame1Body, h1]
    · refine mapM_ok_cons _ _ _ _ _ ?_ hs'
      rw [iterDescBodies, hc]
      simp only [bind, Except.bind] at hc' ⊢
      rw [hc']
      rfl
    · simp [Forest.bodies, ec, es]

lemma Unfolds.iterDescBodies {o : Objs} {w : World} {b F} (h : Unfolds o w b (w.body b).children F) {k : ℕ}
    (hk : depth F < k) : Graph.iterDescBodies o w k b = .ok F.bodies := by
  obtain ⟨k, rfl⟩ : ∃ k', k = k' + 1 := ⟨k - 1, by omega⟩
  obtain ⟨bs, ls, hs, hs', es⟩ := Unfolds.iterBodies_aux h k (by omega)
  rw [Graph.iterDescBodies, hs, ← es]
  simp only [bind, Except.bind] at hs' ⊢
  rw [hs']
  rfl

lemma Unfolds.ancestors {o : Objs} {w : World} {b js F} (h : Unfolds o w b js F) {k : ℕ} {A : List ℕ}
    (hA : iterAncestorBodies o w k b = .ok A) :
    ∀ x ∈ F.paths, iterAncestorBodies o w (k + x.2.length) x.1 =
      .ok ((x.2.map fun l => o.bodyOf l.1).reverse ++ A) := by
  induction h generalizing k A with
  | nil => simp [Forest.paths]
  | @cons b j js f0 f1 ch sib h0 h1 hb hpar hch hsib ihc ihs =>
    have h1' : iterAncestorBodies o w (k + 1) (o.bodyOf f1) = .ok (b :: A) := by
      rw [iterAncestorBodies, hpar]
      simp only [h0, hb, hA]
      rfl
    intro x hx
    simp only [Forest.paths, List.cons_append, List.mem_cons, List.mem_append, List.mem_map] at hx
    rcases hx with rfl | ⟨y, hy, rfl⟩ | hx
    · simpa [hb] using h1'
    · have := ihc h1' y hy
      simp only [List.length_cons, List.map_cons, List.reverse_cons, List.append_assoc, List.singleton_append, hb]
      rw [← this]
      congr 1
      omega
    · exact ihs hA x hx

lemma Unfolds.det {o : Objs} {w : World} {b js F} (h : Unfolds o w b js F) {F'} (h' : Unfolds o w b js F') : F = F' := by
  induction h generalizing F' with
  | nil => cases h'; rfl
  | cons h0 h1 hb hpar hch hsib ihc ihs =>
    cases h' with
    | cons h0' h1' hb' hpar' hch' hsib' =>
      rw [h0] at h0'
      rw [h1] at h1'
      simp only [Option.some.injEq] at h0' h1'
      subst h0' h1'
      rw [ihc hch', ihs hsib']

/-- the invariant along allowed histories -/
lemma GInv.run {o : Objs} {lim : ℕ} {w : World} (h : GInv o w) {op : Op} (ha : Allowed o lim w op) :
    GInv o (op.run o lim w).1 := by
  cases op with
  | addLink args => exact h.addLink args ha
  | register x => exact h.register x
  | replaceJoint old args =>
    rcases ha.2 with hok | he
    · exact h.replaceJoint ha.1 hok
    · rw [he]; exact h
  | init => exact h.init lim

lemma GInv.runAll {o : Objs} {lim : ℕ} {w : World} (h : GInv o w) {ops : List Op} (ha : AllowedHistory o lim w ops) :
    GInv o (runAll o lim w ops) := by
  induction ops generalizing w with
  | nil => exact h
  | cons op ops ih => exact ih (h.run ha.1) ha.2

/-- membership in the tree is reachability -/
lemma Unfolds.mem_of_rpath {o : Objs} {w : World} (h : GInv o w) {F}
    (hu : Unfolds o w w.ground (w.body w.ground).children F) {p c} (hp : RPath o w p c) (hne : p ≠ []) :
    c ∈ F.bodies := by
  -- every body of a subtree whose parent is in the tree is in the tree
  have closed : ∀ {b js G}, Unfolds o w b js G → ∀ c ∈ G.bodies, ∀ j ∈ (w.body c).children, ∀ f,
      (w.joint j).frame1 = some f → o.bodyOf f ∈ G.bodies := by
    intro b js G hG
    induction hG with
    | nil => simp [Forest.bodies]
    | @cons b j js f0 f1 ch sib h0 h1 hb hpar hch hsib ihc ihs =>
      have kidsIn : ∀ {b' js' G'}, Unfolds o w b' js' G' → ∀ k ∈ js', ∀ f, (w.joint k).frame1 = some f →
          o.bodyOf f ∈ G'.bodies := by
        intro b' js' G' hG'
        induction hG' with
        | nil => simp
        | cons h0 h1 _ _ _ _ _ ih =>
          intro k hk f hf
          rcases List.mem_cons.mp hk with rfl | hk
          · rw [h1] at hf; simp at hf; subst hf; simp [Forest.bodies]
          · simp [Forest.bodies, ih k hk f hf]
      intro c hc k hk f hf
      simp only [Forest.bodies, List.cons_append, List.mem_cons, List.mem_append] at hc ⊢
      rcases hc with rfl | hc | hc
      · exact Or.inr (Or.inl (kidsIn hch k hk f hf))
      · exact Or.inr (Or.inl (ihc c hc k hk f hf))
      · exact Or.inr (Or.inr (ihs c hc k hk f hf))
  have kidsIn : ∀ {b' js' G'}, Unfolds o w b' js' G' → ∀ k ∈ js', ∀ f, (w.joint k).frame1 = some f →
      o.bodyOf f ∈ G'.bodies := by
    intro b' js' G' hG'
    induction hG' with
    | nil => simp
    | cons h0 h1 _ _ _ _ _ ih =>
      intro k hk f hf
      rcases List.mem_cons.mp hk with rfl | hk
      · rw [h1] at hf; simp at hf; subst hf; simp [Forest.bodies]
      · simp [Forest.bodies, ih k hk f hf]
  induction p generalizing c with
  | nil => simp at hne
  | cons j p ih =>
    obtain ⟨b, f, hp', hj, hf, rfl⟩ := hp.cons_inv
    by_cases hpn : p = []
    · subst hpn
      rw [hp'.nil_inv] at hj
      exact kidsIn hu j hj f hf
    · exact closed hu b (ih hp' hpn) j hj f hf

lemma Spec.IsTree.mem_iff {o : Objs} {w : World} (h : GInv o w) {F} (hF : IsTree o w F) (c : ℕ) :
    c ∈ w.ground :: F.bodies ↔ ∃ p, RPath o w p c := by
  constructor
  · intro hc
    rcases List.mem_cons.mp hc with rfl | hc
    · exact ⟨[], .root⟩
    · obtain ⟨_, _, h3, _⟩ := Unfolds.nodup h hF.unfolds .root (fun _ h => h) (h.nodup _)
      obtain ⟨j, _, q, hq⟩ := h3 c hc
      exact ⟨_, hq⟩
  · rintro ⟨p, hp⟩
    by_cases hpn : p = []
    · subst hpn; rw [hp.nil_inv]; exact List.mem_cons_self
    · exact List.mem_cons_of_mem _ (Unfolds.mem_of_rpath h hF.unfolds hp hpn)

/-- hanging a body on a tree: reachability afterwards -/
lemma addLink1_rpath {o : Objs} {w : World} (h : GInv o w) {f0 f1 : FrameRef} {j : ℕ}
    (h0 : (w.joint j).frame0 = none) (hp : (w.body (o.bodyOf f1)).parent = none) {p c} :
    RPath o w p c → RPath o (addLink1 o w f0 j f1).1 p c := by
  have hw : (addLink1 o w f0 j f1).1.ground = w.ground := addLink1_ground o w f0 f1 j
  induction p generalizing c with
  | nil => intro hr; rw [hr.nil_inv, ← hw]; exact .root
  | cons k p ih =>
    intro hr
    obtain ⟨b, f, hr', hk, hf, rfl⟩ := hr.cons_inv
    have hkj : k ≠ j := by
      rintro rfl
      obtain ⟨a, _, b, _⟩ := h.kids _ _ hk
      rw [h0] at b; simp at b
    refine .step (ih hr') ((addLink1_prefix o w f0 j f1 b).subset hk) ?_
    unfold Graph.addLink1
    simp only
    rw [if_pos (by simpa using hp)]
    simp [setFrames_frame1, hkj, hf]

lemma addLink1_rpath_inv {o : Objs} {w : World} {f0 f1 : FrameRef} {j : ℕ}
    (hk0 : ∀ b, j ∉ (w.body b).children)
    (hp : (w.body (o.bodyOf f1)).parent = none) (hleaf : (w.body (o.bodyOf f1)).children = [])
    (hne : o.bodyOf f0 ≠ o.bodyOf f1) {p c} :
    RPath o (addLink1 o w f0 j f1).1 p c → RPath o w p c ∨ (c = o.bodyOf f1) := by
  have hw : (addLink1 o w f0 j f1).1.ground = w.ground := addLink1_ground o w f0 f1 j
  induction p generalizing c with
  | nil => intro hr; rw [hr.nil_inv, hw]; exact Or.inl .root
  | cons k p ih =>
    intro hr
    obtain ⟨b, f, hr', hk, hf, rfl⟩ := hr.cons_inv
    unfold Graph.addLink1 at hk hf
    simp only at hk hf
    rw [if_pos (by simpa using hp)] at hk hf
    simp only [registerFrame_body, setChildren_children, setParent_children, setFrames_body] at hk
    simp only [registerFrame_joint, setChildren_joint, setParent_joint, setFrames_frame1] at hf
    by_cases hkj : k = j
    · subst hkj
      rw [if_pos rfl] at hf
      simp at hf
      right; rw [hf]
    · rw [if_neg hkj] at hf
      have hk' : k ∈ (w.body b).children := by
        split_ifs at hk with hb
        · rw [hb]; simpa [hkj] using hk
        · exact hk
      rcases ih hr' with hr'' | rfl
      · left; exact .step hr'' hk' hf
      · rw [hleaf] at hk'; simp at hk'

end Arboris
