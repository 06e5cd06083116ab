import Verif.Props.MatlabMotion

/-!
# C116: what the conversion for Matlab changes
-/

namespace Arboris
open Graph Spec Build Matlab Matrix

/-! ### the mass -/

lemma hingeChain_mass {m : ℝ} {S S' : RS} {name : Option String} {M : ℝ} {f1 : FrameRef} (hM : S'.mass (S'.o.bodyOf f1) 5 5 = M) : ∀ {ks f0 L}, HingeChain m S S' name f0 ks f1 L →
    (L.map fun x => S'.mass (S'.o.bodyOf x.2.2) 5 5).sum = M + (L.length - 1) * (m / 10) := by
  intro ks
  induction ks with
  | nil => intro f0 L h; simp [HingeChain] at h
  | cons k ks ih =>
    intro f0 L h
    cases L with
    | nil => cases ks <;> simp [HingeChain] at h
    | cons x xs =>
      cases ks with
      | nil =>
        cases xs with
        | nil =>
          have e : x.2.2 = f1 := h.2.1
          simp [e, hM]
        | cons y ys =>
          obtain ⟨_, _, b, _, _, h'⟩ := h
          simp [HingeChain] at h'
      | cons k' ks =>
        cases xs with
        | nil =>
          obtain ⟨_, _, b, _, _, h'⟩ := h
          cases ks <;> simp [HingeChain] at h'
        | cons y ys =>
          obtain ⟨e, hj, b, eb, nb, h'⟩ := h
          have hb : S'.mass (S'.o.bodyOf x.2.2) 5 5 = m / 10 := by
            rw [eb]
            change S'.mass b 5 5 = m / 10
            rw [nb.2.2.1]
            simp [Matrix.diagonal]
          rw [List.map_cons, List.sum_cons, ih h', hb]
          simp only [List.length_cons]
          push_cast
          ring

section
variable {S : RS} {F G : Forest (FrameRef × ℕ × FrameRef) ℕ} {c : Conf} {lim con b : ℕ} {l : FrameRef × ℕ × FrameRef}

/-- C116: the conversion adds a tenth of `base_mass` to the mass of the robot for each hinge more than there were joints. -/
theorem C116_weight (hg : Good S F) (hn : Node F l b G) (hroot : S.o.bodyOf l.1 = S.w.ground) (hm : 0 ≤ c.base_mass)
    (hlim : 3 * depth F + 3 ≤ lim) (hfree : ∃ H T, S.jattr l.2.1 = .free H T)
    (hk : ∀ l' ∈ G.links, (hinge (S.jattr l'.2.1)).isSome ∨ (rotations (S.jattr l'.2.1)).isSome) :
    ∃ S' G', Runs (convertRobot c lim con l.2.1) S () S' ∧ IsMatlabRobot S' S.w.ground l b G' ∧
      G'.links.length = (G.links.map fun x => (S.jattr x.2.1).ndof).sum ∧
      ((b :: G'.bodies).map fun x => S'.mass x 5 5).sum =
        ((b :: G.bodies).map fun x => S.mass x 5 5).sum + (G'.links.length - G.links.length) * (c.base_mass / 10) := by
  obtain ⟨S', G', r, hR, k, -, -, -, hlen, -⟩ := C115_ready (con := con) hg hn hroot hm hlim hfree hk
  refine ⟨S', G', r, hR, hlen, ?_⟩
  obtain ⟨H, T, hf⟩ := hfree
  obtain ⟨S1, C, r1, g, -, fl, sp, oth, -⟩ := C115_convert (con := con) hg hn hroot hm hlim (fun h => absurd hf (h H T))
  unfold Runs at r r1
  rw [r] at r1
  cases r1
  unfold Floating at fl
  rw [hf] at fl
  have hl := (node_mem hn).1
  have hC : EndsRight C F := by
    intro x hx L e
    by_cases h1 : x = l
    · rw [h1, fl] at e; cases e
    by_cases h2 : x ∈ G.links
    · exact ((split_facts (sp x h2)).1 L e).2.1
    · rw [oth x hx h1 h2] at e; cases e
  have hCG : EndsRight C G := fun x hx => hC x ((node_mem hn).2.2 x hx)
  have hu := node_unfolds g.tree.unfolds (node_replaceAll S'.o hC hn fl)
  have hgr : S'.o.bodyOf l.1 = S.w.ground := by rw [k.bodyOf (hg.frames l hl).1, hroot]
  rw [hgr] at hu
  have hG' := Unfolds.det hR.unfolds hu
  simp only [Forest.cons.injEq, true_and, and_true] at hG'
  subst hG'
  have hlinks := replaceAll_links S'.o (C := C) (F := G) (fun x hx e => by obtain ⟨hne, _⟩ := hCG x hx [] e; exact hne rfl)
  have hch0 : Unfolds S.o S.w b (S.w.body b).children G := by
    have := unfolds_node (C := fun _ => none) hn (fun _ _ _ e => (by cases e)) (unfolds_labelled hg.tree.unfolds)
      (by rw [replaceAll_none]; exact hg.tree.unfolds)
    rwa [replaceAll_none] at this
  have hch : Unfolds S'.o S'.w b (S'.w.body b).children (replaceAll S'.o C G) := unfolds_node hn hC (by
    intro l' b' ch' hn''
    rw [k.bodyOf (hg.frames l' (node_mem hn'').1).2]
    exact unfolds_labelled hg.tree.unfolds _ _ _ hn'') g.tree.unfolds
  rw [List.map_cons, List.sum_cons, List.map_cons, List.sum_cons, unfolds_bodies hch, unfolds_bodies hch0, hlinks,
    (k.body b (hg.bodies b (node_mem hn).2.1)).1, add_assoc, List.map_map, List.map_map]
  congr 1
  have key : ∀ A : List (FrameRef × ℕ × FrameRef), (∀ x ∈ A, x ∈ G.links) →
      ((A.flatMap fun x => (C x.2.1).getD [x]).map fun x => S'.mass (S'.o.bodyOf x.2.2) 5 5).sum =
        (A.map fun x => S.mass (S.o.bodyOf x.2.2) 5 5).sum + (((A.flatMap fun x => (C x.2.1).getD [x]).length : ℝ) - A.length) * (c.base_mass / 10) := by
    intro A
    induction A with
    | nil => intro _; simp
    | cons x A ih =>
      intro h
      have hxG := h x (by simp)
      have hxF := (node_mem hn).2.2 x hxG
      have hb : S.o.bodyOf x.2.2 ∈ F.bodies := by
        rw [unfolds_bodies hg.tree.unfolds]
        exact List.mem_map.mpr ⟨x, hxF, rfl⟩
      have hM : S'.mass (S'.o.bodyOf x.2.2) 5 5 = S.mass (S.o.bodyOf x.2.2) 5 5 := by
        rw [k.bodyOf (hg.frames x hxF).2, (k.body _ (hg.bodies _ hb)).1]
      have hone : (((C x.2.1).getD [x]).map fun x => S'.mass (S'.o.bodyOf x.2.2) 5 5).sum =
          S.mass (S.o.bodyOf x.2.2) 5 5 + ((((C x.2.1).getD [x]).length : ℝ) - 1) * (c.base_mass / 10) := by
        have hs := sp x hxG
        unfold Split at hs
        split at hs
        · rw [hs]
          simp [hM]
        · obtain ⟨L, e, hc⟩ := hs
          rw [e]
          exact hingeChain_mass hM hc
      simp only [List.flatMap_cons, List.map_append, List.sum_append, List.map_cons, List.sum_cons, List.length_append, List.length_cons]
      rw [hone, ih fun y hy => h y (by simp [hy])]
      push_cast
      ring
  exact key G.links fun _ h => h

end

/-- C116, a further claim (a converted robot is the same robot): its mass is that of the robot. -/
def C116_weight_Claim : Prop :=
  ∀ (S S' : RS) (F G G' : Forest (FrameRef × ℕ × FrameRef) ℕ) (lim con b : ℕ) (l : FrameRef × ℕ × FrameRef), Good S F → Node F l b G →
    S.o.bodyOf l.1 = S.w.ground → 3 * depth F + 3 ≤ lim → (∃ H T, S.jattr l.2.1 = .free H T) → Runs (convertRobot {} lim con l.2.1) S () S' →
    IsMatlabRobot S' S.w.ground l b G' →
    ((b :: G'.bodies).map fun x => S'.mass x 5 5).sum = ((b :: G.bodies).map fun x => S.mass x 5 5).sum

/-- C116: it is false: of a human of 36 dofs, with the converter as it is by default, the mass grows by twenty tons. -/
theorem C116_weight_false : ¬ C116_weight_Claim ∧
    ∀ {S : RS} {F : Forest (FrameRef × ℕ × FrameRef) ℕ}, Good S F → ∀ {lim con : ℕ}, 3 * depth F + 3 ≤ lim → 21 ≤ lim →
    ∀ (height : ℝ) {mass : ℝ}, 0 ≤ mass → ∀ (anat : Option AnatLengths) (pre : String) {L : AnatLengths}, L = anat.getD (anatLengths height) →
    L.yfootL + L.ytibiaL + L.yfemurL = L.yfootR + L.ytibiaR + L.yfemurR →
    ∃ S1 S' G G', Runs (addHuman36 lim height mass anat pre) S () S1 ∧ Good S1 (F.append (.cons (.sub S.ns, S.nj, .body S.nb) S.nb G .nil)) ∧
      Runs (convertRobot {} lim con S.nj) S1 () S' ∧ IsMatlabRobot S' S.w.ground (.sub S.ns, S.nj, .body S.nb) S.nb G' ∧
      ((S.nb :: G'.bodies).map fun x => S'.mass x 5 5).sum = ((S.nb :: G.bodies).map fun x => S1.mass x 5 5).sum + 20000 := by
  have key : ∀ {S : RS} {F : Forest (FrameRef × ℕ × FrameRef) ℕ}, Good S F → ∀ {lim con : ℕ}, 3 * depth F + 3 ≤ lim → 21 ≤ lim →
    ∀ (height : ℝ) {mass : ℝ}, 0 ≤ mass → ∀ (anat : Option AnatLengths) (pre : String) {L : AnatLengths}, L = anat.getD (anatLengths height) →
    L.yfootL + L.ytibiaL + L.yfemurL = L.yfootR + L.ytibiaR + L.yfemurR →
    ∃ S1 S' G G', Runs (addHuman36 lim height mass anat pre) S () S1 ∧ Good S1 (F.append (.cons (.sub S.ns, S.nj, .body S.nb) S.nb G .nil)) ∧
      Runs (convertRobot {} lim con S.nj) S1 () S' ∧ IsMatlabRobot S' S.w.ground (.sub S.ns, S.nj, .body S.nb) S.nb G' ∧
      ((S.nb :: G'.bodies).map fun x => S'.mass x 5 5).sum = ((S.nb :: G.bodies).map fun x => S1.mass x 5 5).sum + 20000 ∧
      S1.o.bodyOf (.sub S.ns) = S1.w.ground ∧ (∃ H T, S1.jattr S.nj = .free H T) ∧ 3 * depth (F.append (.cons (.sub S.ns, S.nj, .body S.nb) S.nb G .nil)) + 3 ≤ lim ∧
      S1.w.ground = S.w.ground := by
    intro S F hg lim con hl h6 height mass hm anat pre L hL hlegs
    obtain ⟨S1, r1, g1, k1, hh⟩ := C72_build hg (lim := lim) (by omega) (by omega) height hm anat pre hL hlegs
    have hn : Node (F.append (skeleton S.nb S.nj S.ns)) (.sub S.ns, S.nj, .body S.nb) S.nb (trunkTree S.nb S.nj S.ns) :=
      node_append_right (.here ..)
    have hat : ∀ k (hk : k < 17), S1.jattr (S.nj + k) = ((humanLinks L)[k]'hk).2.2.1 := fun k hk => (hh.links k hk hk).joint
    have hlk : (trunkTree S.nb S.nj S.ns).links = (List.range' 1 16).map fun k => (FrameRef.sub (S.ns + k), S.nj + k, FrameRef.body (S.nb + k)) := rfl
    have hroot : S1.o.bodyOf (.sub S.ns) = S1.w.ground := by
      have := (hh.links 0 (show 0 < 17 by norm_num) (show 0 < 17 by norm_num)).onBody
      rw [k1.ground]
      exact this
    have hd : 3 * depth (F.append (skeleton S.nb S.nj S.ns)) + 3 ≤ lim := by rw [depth_append, depth_skeleton]; omega
    obtain ⟨S2, G', r2, hR, hlen, hmass⟩ := C116_weight (con := con) (c := {}) g1 hn hroot (by norm_num) hd
      ⟨1, 0, hat 0 (by norm_num)⟩ (by
        intro l' hl'
        rw [hlk, List.mem_map] at hl'
        obtain ⟨k, hk, rfl⟩ := hl'
        have hk' := List.mem_range'_1.mp hk
        simp only
        rw [hat k (by omega)]
        obtain ⟨h1, h2⟩ := hk'
        interval_cases k <;> first | exact .inl rfl | exact .inr rfl)
    have h36 : G'.links.length = 36 := by
      rw [hlen, hlk, List.map_map]
      rw [List.map_congr_left (g := fun k => segmentDofs.getD k 0) (by
        intro k hk
        have hk' := List.mem_range'_1.mp hk
        simp only [Function.comp_apply]
        rw [hat k (by omega)]
        obtain ⟨h1, h2⟩ := hk'
        interval_cases k <;> rfl)]
      rfl
    rw [k1.ground] at hR
    refine ⟨S1, S2, trunkTree S.nb S.nj S.ns, G', r1, g1, r2, hR, ?_, hroot, ⟨1, 0, hat 0 (by norm_num)⟩, hd, k1.ground⟩
    rw [hmass, h36, hlk]
    simp only [List.length_map, List.length_range']
    norm_num
  refine ⟨?_, ?_⟩
  · intro h
    obtain ⟨S1, S', G, G', -, g1, r2, hR, hmass, hroot, hfree, hd, hgr⟩ := key good_new (lim := 1000) (con := 0) (by simp [depth]) (by norm_num) 1.741 (mass := 73) (by norm_num)
      none "" rfl (by simp [anatLengths])
    have := h S1 S' _ G G' 1000 0 _ _ g1 (node_append_right (.here ..)) hroot hd hfree r2 (by rw [hgr]; exact hR)
    rw [hmass] at this
    linarith
  · intro S F hg lim con hl h6 height mass hm anat pre L hL hlegs
    obtain ⟨S1, S', G, G', h1, h2, h3, h4, h5, -⟩ := key hg (con := con) hl h6 height hm anat pre hL hlegs
    exact ⟨S1, S', G, G', h1, h2, h3, h4, h5⟩

end Arboris
