import Verif.Proofs.UrdfLoad
import Verif.Props.Depth
import Verif.Props.Collisions

/-!
# C84, C70: loading a URDF model
-/

namespace Arboris
open Matrix Graph Build Urdf Spec

/-- A model that describes a tree: consistent tables, joints between links of the model, one root, no cycle; and its
elements can be read. -/
structure Spec.WellFormed (save : Bool) (r : Robot) : Prop where
  consistent : Robot.Consistent r
  ends : ∀ x ∈ r.joints, x.2.parent ∈ r.links.map Prod.fst ∧ x.2.child ∈ r.links.map Prod.fst
  top : ∃! x, Robot.IsTop r x
  acyclic : ∃ rank : String → ℕ, ∀ p j c, Robot.Edge r p j c → rank p < rank c
  links : ∀ l ∈ r.links, LinkOK l.2
  joints : ∀ x ∈ r.joints, JointOK save x.2

/-- What loading a model `r` gives: to the tree `F` of the world is added, below the ground, one link to the body `b`
of the root link of the model, with the tree `G` below it. -/
structure Spec.Loaded (opt : Options) (r : Robot) (S : RS) (F : Forest (FrameRef × ℕ × FrameRef) ℕ) (res : Result) (S' : RS)
    (f0 : FrameRef) (b : ℕ) (G : Forest (FrameRef × ℕ × FrameRef) ℕ) : Prop where
  tree : Good S' (F.append (.cons (f0, S.nj + r.joints.length, .body b) b G .nil))
  keeps : Keeps S S'
  /-- new bodies, under the names of the links -/
  names : res.bodies.map Prod.fst = r.links.map Prod.fst
  numbers : res.bodies.map Prod.snd = List.range' S.nb r.links.length
  bodies : ∀ x ∈ r.links, ∃ c, res.bodies.lookup x.1 = some c ∧ HasUBody S' c x.1 x.2
  /-- all of them are in the tree, and nothing else -/
  all : (b :: G.bodies).Perm (res.bodies.map Prod.snd)
  /-- one link for each joint, and nothing else -/
  links : ∃ Ls, G.links.Perm Ls ∧ List.Forall₂ (HasUJoint S' res.bodies "" "") r.joints Ls
  /-- the first body stands for the root, and is held by a free or fixed joint at `H_init` -/
  root : ∃ x, Robot.IsTop r x ∧ res.bodies.lookup x = some b
  base : S'.o.bodyOf f0 = S.w.ground ∧ S'.bposeOf f0 = opt.H_init.getD 1 ∧
    S'.jattr (S.nj + r.joints.length) = (if opt.fixed_base then .fixed else .free 1 0) ∧ S'.jname (S.nj + r.joints.length) = some opt.root_joint_name
  /-- one constraint for each joint with limits -/
  limits : res.limits = (r.joints.zipIdx S.nj).flatMap fun x => limitOf opt.save_joint_limits x.1.2 x.2
  /-- the degrees of freedom are numbered -/
  ndof : S'.w.ndof = ndofSum S'.o (joints (F.append (.cons (f0, S.nj + r.joints.length, .body b) b G .nil)))

lemma numbered_fst (m : ℕ) (names : List String) : (numbered m names).map Prod.fst = names := by
  induction names generalizing m with
  | nil => rfl
  | cons n r ih => simp [numbered, ih]

lemma numbered_snd (m : ℕ) (names : List String) : (numbered m names).map Prod.snd = List.range' m names.length := by
  induction names generalizing m with
  | nil => rfl
  | cons n r ih => simp [numbered, ih, List.range'_succ]

lemma mem_numbered (m : ℕ) (names : List String) (x : String) (c : ℕ) :
    (x, c) ∈ numbered m names ↔ ∃ k, names[k]? = some x ∧ c = m + k := by
  induction names generalizing m with
  | nil => simp [numbered]
  | cons n r ih =>
    simp only [numbered, List.mem_cons, Prod.mk.injEq, ih]
    constructor
    · rintro (⟨rfl, rfl⟩ | ⟨k, h1, rfl⟩)
      · exact ⟨0, rfl, rfl⟩
      · exact ⟨k + 1, by simpa using h1, by omega⟩
    · rintro ⟨k, h1, rfl⟩
      cases k with
      | zero => left; exact ⟨by simpa using h1.symm, rfl⟩
      | succ k => right; exact ⟨k, by simpa using h1, by omega⟩

lemma lookup_numbered {m : ℕ} {names : List String} (hn : names.Nodup) (x : String) (c : ℕ) :
    (numbered m names).lookup x = some c ↔ ∃ k, names[k]? = some x ∧ c = m + k := by
  rw [lookup_some_iff (by rw [numbered_fst]; exact hn), mem_numbered]

lemma forall₂_left {α β : Type} {R : α → β → Prop} {l : List α} {l' : List β} (h : List.Forall₂ R l l') : ∀ x ∈ l, ∃ y ∈ l', R x y := by
  induction h with
  | nil => simp
  | cons h _ ih =>
    intro x hx
    rcases List.mem_cons.mp hx with rfl | hx
    · exact ⟨_, List.mem_cons_self, h⟩
    · obtain ⟨y, hy, hr⟩ := ih x hx; exact ⟨y, List.mem_cons_of_mem _ hy, hr⟩

lemma forall₂_right {α β : Type} {R : α → β → Prop} {l : List α} {l' : List β} (h : List.Forall₂ R l l') : ∀ y ∈ l', ∃ x ∈ l, R x y := by
  induction h with
  | nil => simp
  | cons h _ ih =>
    intro x hx
    rcases List.mem_cons.mp hx with rfl | hx
    · exact ⟨_, List.mem_cons_self, h⟩
    · obtain ⟨y, hy, hr⟩ := ih x hx; exact ⟨y, List.mem_cons_of_mem _ hy, hr⟩

lemma baseFrame_runs {m n j0 : ℕ} {F : Forest (FrameRef × ℕ × FrameRef) ℕ} {S : RS} {Ls : List (FrameRef × ℕ × FrameRef)} (h : Wired m n j0 F S Ls)
    {H : Option Mat4} (hH : ∀ K, H = some K → ishomogeneousmatrix K) :
    ∃ S' f0, Runs (baseFrame H) S f0 S' ∧ Wired m n j0 F S' Ls ∧ Keeps S S' ∧ Old S' f0 ∧ S'.o.bodyOf f0 = S.w.ground ∧ S'.bposeOf f0 = H.getD 1 := by
  cases H with
  | none => exact ⟨S, .body S.w.ground, rfl, h, .refl S, h.good.ground, rfl, rfl⟩
  | some K =>
    obtain ⟨S1, r1, g1, k1, _, s1, p1, _, b1, j1, n1, sh1, w1⟩ := newSub_runs h.good S.w.ground (hH K rfl) none
    refine ⟨S1, .sub S.ns, ?_, h.mono g1 k1 b1 j1 (by rw [w1]) (by rw [w1]), k1, ?_, s1, p1⟩
    · have : Runs (do
          let f ← newSub S.w.ground K none
          pure (.sub f) : Prog FrameRef) S (.sub S.ns) S1 := r1.bind (Runs.pure _ _)
      exact this
    · change S.ns < S1.ns; omega

lemma deco_empty (x : String) : "" ++ x ++ "" = x := by simp

/-- C84: a well-formed model is loaded (without prefix or suffix) into any world that is a tree, whatever the order of
its dictionaries: one body per link, one joint per joint, forming the tree described by the model, hung under the
ground. -/
theorem C84_load {sort : Vec3 → Equiv.Perm (Fin 3)} (hs : ∀ v, IsArgsortAbs v (sort v)) {S : RS} {F : Forest (FrameRef × ℕ × FrameRef) ℕ} (hg : Good S F)
    {opt : Options} (hpre : opt.pre = "") (hsuf : opt.suf = "") (hH : ∀ K, opt.H_init = some K → ishomogeneousmatrix K)
    {r : Robot} (hr : WellFormed opt.save_joint_limits r) {lim : ℕ} (hl1 : depth F < lim) (hl2 : r.links.length < lim) :
    ∃ res S' f0 b G, Runs (load sort lim opt r) S res S' ∧ Loaded opt r S F res S' f0 b G := by
  obtain ⟨hc, hends, htop, ⟨rank, hrank⟩, hlinks, hjoints⟩ := hr
  obtain ⟨root, hroot, huniq⟩ := htop
  have er : r.getRoot = .ok root := ((C71_root hc).1 root).mpr ⟨hroot, huniq⟩
  -- links
  obtain ⟨S1, r1, g1, k1, f1, b1, j1, facts⟩ := loadLinks_runs "" "" r.links hg hlinks
  simp only [deco_empty] at r1 facts
  have enames : (r.links.map fun l => l.1) = r.links.map Prod.fst := rfl
  rw [enames] at r1
  set names := r.links.map Prod.fst with hnames
  have hnd : names.Nodup := hc.links
  have hlen : names.length = r.links.length := by simp [hnames]
  set bodies := numbered S.nb names with hbodies
  have look : ∀ x c, bodies.lookup x = some c ↔ ∃ k, names[k]? = some x ∧ c = S.nb + k := lookup_numbered hnd
  have lookmem : ∀ x ∈ names, ∃ c, bodies.lookup x = some c ∧ S.nb ≤ c ∧ c < S.nb + r.links.length := by
    intro x hx
    obtain ⟨k, hk, e⟩ := List.mem_iff_getElem.mp hx
    refine ⟨S.nb + k, (look _ _).mpr ⟨k, by rw [List.getElem?_eq_getElem hk, e], rfl⟩, by omega, by omega⟩
  have lookinj : ∀ x y c, bodies.lookup x = some c → bodies.lookup y = some c → x = y := by
    intro x y c h1 h2
    obtain ⟨k, a1, a2⟩ := (look _ _).mp h1
    obtain ⟨k', a1', a2'⟩ := (look _ _).mp h2
    have : k = k' := by omega
    subst this
    rw [a1] at a1'; injection a1'
  have looksurj : ∀ c, S.nb ≤ c → c < S.nb + r.links.length → ∃ x ∈ names, bodies.lookup x = some c := by
    intro c h1 h2
    have hk : c - S.nb < names.length := by omega
    exact ⟨names[c - S.nb], List.getElem_mem hk, (look _ _).mpr ⟨c - S.nb, List.getElem?_eq_getElem hk, by omega⟩⟩
  have fresh : ∀ c, S.nb ≤ c → c < S.nb + r.links.length → FreshBody S1.w c := by
    intro c h1 h2
    have := (facts (c - S.nb) (by omega)).1
    rwa [show S.nb + (c - S.nb) = c by omega] at this
  have w0 : Wired S.nb (S.nb + r.links.length) S.nj F S1 [] := by
    refine ⟨g1, ?_, hg.joints, b1, by simpa using j1, by simp, by simp, by simp, by simp, by simp, by simp, ?_, ?_, by simp, by simp⟩
    · intro b hb
      rw [k1.ground] at hb
      exact hg.body_lt hb
    · intro b h1 h2; simpa using (fresh b h1 h2).2.2
    · intro b h1 h2 _; exact (fresh b h1 h2).2.1
  -- joints
  have jnd : r.joints.Nodup := List.Nodup.of_map _ hc.joints
  obtain ⟨S2, Ls, r2, w2, k2, made⟩ := loadJoints_runs hs "" "" (bodies := bodies) r.joints hjoints w0 (by
      intro x hx
      obtain ⟨e1, e2⟩ := hends x hx
      obtain ⟨p, hp, hp'⟩ := lookmem _ e1
      obtain ⟨c, hc, hc'⟩ := lookmem _ e2
      exact ⟨p, c, hp, hc, hp', hc'⟩) (by
      refine List.Nodup.map_on ?_ jnd
      rintro x hx y hy e
      obtain ⟨c, hc1, _⟩ := lookmem _ (hends x hx).2
      have hch : x.2.child = y.2.child := lookinj _ _ c hc1 (by rw [← e]; exact hc1)
      have ex := (hc.parent x.2.parent x.1 x.2.child).mpr ⟨x.2, hx, rfl, rfl⟩
      have ey := (hc.parent y.2.parent y.1 y.2.child).mpr ⟨y.2, hy, rfl, rfl⟩
      rw [hch, ey] at ex
      injection ex with ex; injection ex with ex _
      have q1 := (lookup_some_iff hc.joints x.1 x.2).mpr hx
      have q2 := (lookup_some_iff hc.joints y.1 y.2).mpr hy
      rw [ex, q1] at q2
      injection q2 with q2
      exact Prod.ext ex.symm q2) (by simp)
  rw [List.nil_append] at w2
  rw [j1] at r2
  have hLlen : Ls.length = r.joints.length := made.length_eq.symm
  -- the root
  obtain ⟨b, hb, hbN⟩ := lookmem root hroot.1
  have htop2 : ∀ l ∈ Ls, S2.o.bodyOf l.2.2 ≠ b := by
    intro l hl e
    obtain ⟨x, hx, hm⟩ := forall₂_right made l hl
    have := hm.child
    rw [e] at this
    have := lookinj _ _ b this hb
    exact hroot.2 x.2.parent x.1 ⟨x.2, hx, rfl, this⟩
  -- the tree
  let rk : ℕ → ℕ := fun c => rank (names.getD (c - S.nb) "")
  have hrk : ∀ x c, bodies.lookup x = some c → rk c = rank x := by
    intro x c h
    obtain ⟨k, a1, rfl⟩ := (look _ _).mp h
    simp only [rk, show S.nb + k - S.nb = k by omega]
    rw [List.getD_eq_getElem?_getD, a1]; rfl
  obtain ⟨S3, f0, r3, w3, k3, o3, bo3, bp3⟩ := baseFrame_runs w2 hH
  have e1 : ∀ l ∈ Ls, S3.o.bodyOf l.2.2 = S2.o.bodyOf l.2.2 := fun l hl => k3.bodyOf (w2.old l hl).2
  have e0 : ∀ l ∈ Ls, S3.o.bodyOf l.1 = S2.o.bodyOf l.1 := fun l hl => k3.bodyOf (w2.old l hl).1
  have htop3 : ∀ l ∈ Ls, S3.o.bodyOf l.2.2 ≠ b := by intro l hl; rw [e1 l hl]; exact htop2 l hl
  obtain ⟨G, u1, u2, u3, u4, u5⟩ := w3.tree hbN htop3 (rank := rk) (by
      intro l hl
      obtain ⟨x, hx, hm⟩ := forall₂_right made l hl
      rw [e0 l hl, e1 l hl, hrk _ _ hm.parent, hrk _ _ hm.child]
      exact hrank _ _ _ ⟨x.2, hx, rfl, rfl⟩) (by
      intro c h1 h2 hne
      obtain ⟨x, hx, hxc⟩ := looksurj c h1 h2
      have : ¬ Robot.IsTop r x := by
        intro ht
        have := huniq x ht
        subst this
        rw [hb] at hxc; injection hxc with hxc
        exact hne hxc.symm
      have : ∃ p j, Robot.Edge r p j x := by
        by_contra hh; push Not at hh; exact this ⟨hx, hh⟩
      obtain ⟨p, j, u, hu, _, hch⟩ := this
      obtain ⟨l, hl, hm⟩ := forall₂_left made (j, u) hu
      refine ⟨l, hl, ?_⟩
      have := hm.child
      simp only [hch] at this
      rw [hxc] at this; injection this with this
      rw [e1 l hl, ← this])
  obtain ⟨S4, S5, r4, r5, g5, k5, ja5, jn5, nb5, nj5⟩ := w3.hang hbN htop3 u1 u2 u3 u4 u5 o3 (by rw [bo3, k3.ground])
    (if opt.fixed_base then .fixed else .free 1 0) (some opt.root_joint_name)
  have enj : S3.nj = S.nj + r.joints.length := by rw [w3.nj, hLlen]
  rw [enj] at r4 r5 g5 ja5 jn5 nj5
  have gdep : depth G + 1 ≤ r.links.length := by
    have h1 := depth_le_bodies G
    have h2 : (b :: G.bodies).length ≤ (List.range' S.nb r.links.length).length := by
      refine List.Subperm.length_le (List.subperm_of_subset u2 ?_)
      intro c hc
      rw [List.mem_range'_1]
      have := (u4 c).mp hc
      omega
    simp at h2
    omega
  obtain ⟨w6, r6, g6, k6, _, n6, _⟩ := init_runs g5 (lim := lim) (by rw [depth_append]; simp only [depth]; omega)
  have kk := (k3.trans k5).trans k6
  have kall := (k1.trans k2).trans kk
  refine ⟨⟨bodies, _⟩, _, f0, b, G, ?_, ⟨g6, kall, ?_, ?_, ?_, ?_, ?_, ?_, ?_, rfl, ?_⟩⟩
  · unfold load
    rw [hpre, hsuf]
    refine r1.bind (r2.bind ((Runs.liftE er S2).bind ((byName_runs hb S2).bind (r3.bind ?_))))
    simp only [deco_empty]
    rw [← enj] at r4 r5
    exact r4.bind (r5.bind (r6.bind (Runs.pure _ _)))
  · exact numbered_fst _ _
  · rw [numbered_snd, hlen]
  · intro x hx
    obtain ⟨k, hk, e⟩ := List.mem_iff_getElem.mp hx
    refine ⟨S.nb + k, (look _ _).mpr ⟨k, by simp [hnames, List.getElem?_eq_getElem hk, e], rfl⟩, ?_⟩
    have := (facts k hk).2
    rw [e] at this
    exact this.keep (k2.trans kk) (by rw [b1]; omega)
  · rw [numbered_snd, hlen, List.perm_ext_iff_of_nodup u2 List.nodup_range']
    intro c
    rw [u4, List.mem_range'_1]
  · refine ⟨Ls, u5, ?_⟩
    have : ∀ {js : List (String × UJoint)} {Ms : List (FrameRef × ℕ × FrameRef)}, List.Forall₂ (HasUJoint S2 bodies "" "") js Ms → (∀ l ∈ Ms, l ∈ Ls) →
        List.Forall₂ (HasUJoint { S5 with w := w6 } bodies "" "") js Ms := by
      intro js Ms h
      induction h with
      | nil => intro _; exact .nil
      | cons h _ ih =>
        intro hm
        have hl := hm _ List.mem_cons_self
        exact .cons (h.keep kk (w2.lt_nj hl) (w2.old _ hl).1 (w2.old _ hl).2) (ih fun l hl => hm l (List.mem_cons_of_mem _ hl))
    exact this made (fun _ h => h)
  · exact ⟨root, hroot, hb⟩
  · refine ⟨?_, ?_, ja5, jn5⟩
    · rw [(k5.trans k6).bodyOf o3, bo3, (k1.trans k2).ground]
    · rw [(k5.trans k6).bposeOf o3, bp3]
  · exact n6

/-! a model with three links and two joints -/

section sanity

def urdfLk (n : String) : ULink := ⟨n, none, none, none⟩
def urdfJt (n p c : String) (t : UType) : UJoint := ⟨n, p, c, t, some ![0, 0, 1], none, none⟩
def urdfModel : List (ULink ⊕ UJoint) :=
  [.inr (urdfJt "j2" "b" "c" .fixed), .inl (urdfLk "c"), .inl (urdfLk "a"), .inr (urdfJt "j1" "a" "b" .revolute), .inl (urdfLk "b")]

lemma urdfModel_ok : WellFormed false (Robot.parse urdfModel) := by
  obtain ⟨h1, h2, hc⟩ := C71_parse (es := urdfModel) (by decide) (by decide) (by decide)
  have hj : ∀ x ∈ (Robot.parse urdfModel).joints, x = ("j2", urdfJt "j2" "b" "c" .fixed) ∨ x = ("j1", urdfJt "j1" "a" "b" .revolute) := by
    rintro ⟨k, u⟩ hx
    obtain ⟨a, rfl⟩ := (h2 _ _).mp hx
    simp only [urdfModel, List.mem_cons, Sum.inr.injEq, reduceCtorEq, false_or, or_false, List.not_mem_nil] at a
    rcases a with rfl | rfl
    · exact .inl rfl
    · exact .inr rfl
  have hl : ∀ k l, (k, l) ∈ (Robot.parse urdfModel).links ↔ (k, l) = ("c", urdfLk "c") ∨ (k, l) = ("a", urdfLk "a") ∨ (k, l) = ("b", urdfLk "b") := by
    intro k l
    rw [h1]
    simp only [urdfModel, List.mem_cons, Sum.inl.injEq, reduceCtorEq, false_or, or_false, List.not_mem_nil, Prod.mk.injEq]
    constructor
    · rintro ⟨rfl | rfl | rfl, rfl⟩ <;> simp [urdfLk]
    · rintro (⟨rfl, rfl⟩ | ⟨rfl, rfl⟩ | ⟨rfl, rfl⟩) <;> simp [urdfLk]
  have hkeys : ∀ x, x ∈ (Robot.parse urdfModel).links.map Prod.fst ↔ x = "c" ∨ x = "a" ∨ x = "b" := by
    intro x
    rw [List.mem_map]
    constructor
    · rintro ⟨⟨k, l⟩, hm, rfl⟩
      rcases (hl k l).mp hm with h | h | h <;> injection h with h _ <;> subst h <;> simp
    · rintro (rfl | rfl | rfl)
      · exact ⟨("c", urdfLk "c"), (hl _ _).mpr (.inl rfl), rfl⟩
      · exact ⟨("a", urdfLk "a"), (hl _ _).mpr (.inr (.inl rfl)), rfl⟩
      · exact ⟨("b", urdfLk "b"), (hl _ _).mpr (.inr (.inr rfl)), rfl⟩
  have m1 : ("j1", urdfJt "j1" "a" "b" .revolute) ∈ (Robot.parse urdfModel).joints := (h2 _ _).mpr ⟨by simp [urdfModel], rfl⟩
  have m2 : ("j2", urdfJt "j2" "b" "c" .fixed) ∈ (Robot.parse urdfModel).joints := (h2 _ _).mpr ⟨by simp [urdfModel], rfl⟩
  refine ⟨hc, ?_, ⟨"a", ⟨(hkeys _).mpr (by simp), ?_⟩, ?_⟩, ⟨fun s => if s = "a" then 0 else if s = "b" then 1 else 2, ?_⟩, ?_, ?_⟩
  · intro x hx
    rw [hkeys, hkeys]
    rcases hj x hx with rfl | rfl <;> simp [urdfJt]
  · rintro p j ⟨u, hu, _, he⟩
    rcases hj _ hu with h | h <;> injection h with _ h <;> subst h <;> simp [urdfJt] at he
  · rintro y ⟨hy, hn⟩
    rcases (hkeys y).mp hy with rfl | rfl | rfl
    · exact absurd ⟨_, m2, rfl, rfl⟩ (hn "b" "j2")
    · rfl
    · exact absurd ⟨_, m1, rfl, rfl⟩ (hn "a" "j1")
  · rintro p j c ⟨u, hu, rfl, rfl⟩
    rcases hj _ hu with h | h <;> injection h with _ h <;> subst h <;> simp [urdfJt]
  · rintro ⟨k, l⟩ hx
    rcases (hl k l).mp hx with h | h | h <;> injection h with _ h <;> subst h <;> exact ⟨fun i h => absurd h (by simp [urdfLk]), fun i h => absurd h (by simp [urdfLk])⟩
  · intro x hx
    have hn : norm3 ![0, 0, 1] = 1 := by simp [norm3]
    rcases hj x hx with rfl | rfl
    · exact ⟨⟨1, rfl⟩, ⟨_, rfl, fun _ => hn⟩, by simp [urdfJt], fun h => absurd h (by simp)⟩
    · exact ⟨⟨1, rfl⟩, ⟨_, rfl, fun _ => hn⟩, by simp [urdfJt], fun h => absurd h (by simp)⟩

/-- the hypotheses of `C84_load` are met: this model, in an empty world -/
example {sort : Vec3 → Equiv.Perm (Fin 3)} (hs : ∀ v, IsArgsortAbs v (sort v)) :
    ∃ res S' f0 b G, Runs (load sort 1000 { save_joint_limits := false } (Robot.parse urdfModel)) RS.new res S' ∧
      Loaded { save_joint_limits := false } (Robot.parse urdfModel) RS.new .nil res S' f0 b G :=
  C84_load hs good_new rfl rfl (fun K h => absurd h (by simp)) urdfModel_ok (by simp [depth]) (by
    simp [Robot.parse, urdfModel, Robot.add, Robot.addJoint, Robot.addLink, Robot.empty, dictSet, urdfJt, urdfLk])

/-- C70: the claim is false (see `C70_never`). -/
theorem C70_false : ¬ C70_Claim := by
  intro h
  obtain ⟨sort, hs⟩ := C48_sort_exists
  obtain ⟨res, S', f0, b, G, hr, _⟩ := C84_load (opt := { save_joint_limits := false }) (lim := 1000) hs good_new rfl rfl
    (fun K h => absurd h (by simp)) urdfModel_ok (by simp [depth]) (by
      simp [Robot.parse, urdfModel, Robot.add, Robot.addJoint, Robot.addLink, Robot.empty, dictSet, urdfJt, urdfLk])
  obtain ⟨a, S'', e⟩ := h sort 1000 { save_joint_limits := false, pre := "x" } (Robot.parse urdfModel) RS.new urdfModel_ok.consistent ⟨res, S', hr⟩
  obtain ⟨e', h'⟩ := C70_never sort 1000 (opt := { save_joint_limits := false, pre := "x" }) (.inl (by decide)) urdfModel_ok.consistent RS.new
  rw [h'] at e
  exact absurd e (by simp)

end sanity

/-- C70: without prefix and suffix, every well-formed model is loaded.  (Missing: with a prefix or a suffix, see
`C70_never`.) -/
theorem C70_partial {sort : Vec3 → Equiv.Perm (Fin 3)} (hs : ∀ v, IsArgsortAbs v (sort v)) {S : RS} {F : Forest (FrameRef × ℕ × FrameRef) ℕ} (hg : Good S F)
    {opt : Options} (hpre : opt.pre = "") (hsuf : opt.suf = "") (hH : ∀ K, opt.H_init = some K → ishomogeneousmatrix K)
    {r : Robot} (hr : WellFormed opt.save_joint_limits r) {lim : ℕ} (hl1 : depth F < lim) (hl2 : r.links.length < lim) :
    ∃ res S', load sort lim opt r S = .ok (res, S') := by
  obtain ⟨res, S', _, _, _, h, _⟩ := C84_load hs hg hpre hsuf hH hr hl1 hl2
  exact ⟨res, S', h⟩

end Arboris
