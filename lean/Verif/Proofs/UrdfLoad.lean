import Verif.Props.UrdfTree
import Verif.Proofs.Loops

/-!
# Lemmas: loading a URDF model
-/

namespace Arboris
open Matrix Graph Build Urdf Spec

/-! ### links -/

/-- the shape that stands for a geometry of a URDF file: a box is given by its half extents; meshes are left out -/
noncomputable def Spec.geoOf : UGeom → Option ShapeGeo
  | .box d => some (.box fun i => d i / 2)
  | .sphere r => some (.sphere r)
  | .cylinder r l => some (.cylinder l r)
  | .mesh _ _ => none

/-- a geometry that can be read: no negative radius, no scaled mesh -/
def Spec.GeomOK : UGeom → Prop
  | .box _ => True
  | .sphere r => 0 ≤ r
  | .cylinder r _ => 0 ≤ r
  | .mesh _ s => s = none

/-- an `<inertial>` element with physical values -/
structure Spec.InertialOK (i : UInertial) : Prop where
  origin : ∃ H, IsOrigin i.origin H
  mass : 1e-6 ≤ i.mass
  ixx : 1e-6 ≤ i.ixx
  iyy : 1e-6 ≤ i.iyy
  izz : 1e-6 ≤ i.izz
  pd : SymPD (inertiaOf i)

/-- a link that can be read -/
structure Spec.LinkOK (l : ULink) : Prop where
  inertial : ∀ i, l.inertial = some i → InertialOK i
  collision : ∀ s, l.collision = some s → (∃ H, IsOrigin s.origin H) ∧ ∃ g, s.geometry = some g ∧ GeomOK g

/-- the collision shape of a link: registered, of the right class and size, in a frame of the body placed at the origin
of the element -/
def Spec.HasShape (S : RS) (b : ℕ) (s : UShape) : Prop :=
  ∀ g G H, s.geometry = some g → geoOf g = some G → IsOrigin s.origin H →
    ∃ f sh, f < S.ns ∧ sh < S.nsh ∧ sh ∈ S.w.shapes ∧ S.o.shapeFrame sh = .sub f ∧ S.o.subBody f = b ∧ S.bpose f = H ∧ S.geo sh = G

/-- the body of a link: its name, its mass, its shape -/
structure Spec.HasUBody (S : RS) (b : ℕ) (name : String) (l : ULink) : Prop where
  name : S.bname b = some name
  mass : ∀ i H, l.inertial = some i → IsOrigin i.origin H →
    IsRigidMass (S.mass b) i.mass (pos H) (rot H * inertiaOf i * (rot H)ᵀ - i.mass • (skew (pos H) * skew (pos H)))
  shape : ∀ s, l.collision = some s → HasShape S b s

lemma Spec.HasShape.keep {S S' : RS} (hk : Keeps S S') {b s} (h : HasShape S b s) : HasShape S' b s := by
  intro g G H h1 h2 h3
  obtain ⟨f, sh, a1, a2, a3, a4, a5, a6, a7⟩ := h g G H h1 h2 h3
  obtain ⟨k1, _, k2⟩ := hk.sub f a1
  obtain ⟨k3, _, k4⟩ := hk.shape sh a2
  exact ⟨f, sh, a1.trans_le hk.ns, a2.trans_le hk.nsh, hk.shapes _ a3, by rw [k4, a4], by rw [k2, a5], by rw [k1, a6], by rw [k3, a7]⟩

lemma Spec.HasUBody.keep {S S' : RS} (hk : Keeps S S') {b name l} (hb : b < S.nb) (h : HasUBody S b name l) : HasUBody S' b name l := by
  obtain ⟨e1, e2⟩ := hk.body b hb
  exact ⟨by rw [e2]; exact h.name, by rw [e1]; exact h.mass, fun s hs => (h.shape s hs).keep hk⟩

section
variable {S : RS} {F : Forest (FrameRef × ℕ × FrameRef) ℕ}

lemma loadCollision_runs (hg : Good S F) (b : ℕ) {c : Option UShape}
    (hc : ∀ s, c = some s → (∃ H, IsOrigin s.origin H) ∧ ∃ g, s.geometry = some g ∧ GeomOK g) :
    ∃ S', Runs (loadCollision b c) S () S' ∧ Good S' F ∧ Keeps S S' ∧ KeepsFresh S S' [] [] ∧ S'.nb = S.nb ∧ S'.nj = S.nj ∧
      ∀ s, c = some s → HasShape S' b s := by
  cases c with
  | none => exact ⟨S, Runs.pure _ _, hg, .refl S, .refl S, rfl, rfl, fun s h => absurd h (by simp)⟩
  | some s =>
    obtain ⟨⟨H, hH⟩, g, hs, hgeo⟩ := hc s rfl
    obtain ⟨eH, hr⟩ := toPose_origin hH
    have hu : ∀ H', IsOrigin s.origin H' → H' = H := by
      intro H' h'
      have := (toPose_origin h').1
      rw [eH] at this; injection this with this; exact this.symm
    by_cases hmesh : geoOf g = none
    · have e : toCollision s = .ok (none, H) := by
        cases g with
        | box d => simp [geoOf] at hmesh
        | sphere r => simp [geoOf] at hmesh
        | cylinder r l => simp [geoOf] at hmesh
        | mesh f sc =>
          simp only [GeomOK] at hgeo
          simp only [toCollision, hs, hgeo, toGeo, eH, bind, Except.bind]
      refine ⟨S, (Runs.liftE e S).bind (Runs.pure _ _), hg, .refl S, .refl S, rfl, rfl, ?_⟩
      rintro s' h; injection h with h; subst h
      intro g' G H' h1 h2 _
      rw [hs] at h1; injection h1 with h1; subst h1
      rw [hmesh] at h2; exact absurd h2 (by simp)
    · obtain ⟨G, hG⟩ := Option.ne_none_iff_exists'.mp hmesh
      have e : toCollision s = .ok (some G, H) ∧ G.ok ∧ G.stored = G := by
        cases g with
        | box d =>
          simp only [geoOf, Option.some.injEq] at hG; subst hG
          refine ⟨?_, trivial, rfl⟩
          have : ((1 / 2 : ℝ) • d) = fun i => d i / 2 := by ext i; simp; ring
          simp only [toCollision, hs, toGeo, eH, bind, Except.bind, this]
        | sphere r =>
          simp only [geoOf, Option.some.injEq] at hG; subst hG
          exact ⟨by simp only [toCollision, hs, toGeo, eH, bind, Except.bind], hgeo, rfl⟩
        | cylinder r l =>
          simp only [geoOf, Option.some.injEq] at hG; subst hG
          exact ⟨by simp only [toCollision, hs, toGeo, eH, bind, Except.bind], hgeo, rfl⟩
        | mesh f sc => simp [geoOf] at hG
      obtain ⟨e, hok, hst⟩ := e
      obtain ⟨S1, r1, g1, k1, f1, s1, p1, _, b1, j1, n1, sh1, w1⟩ := newSub_runs hg b hr.ishom none
      obtain ⟨S2, r2, g2, k2, f2, s2, p2, _, b2, j2, n2, sh2, w2⟩ := newShape_runs g1 (.sub S.ns) hok none
      obtain ⟨w3, r3, g3, k3, f3, s3, _⟩ := regShape_runs g2 S1.nsh
      refine ⟨_, (Runs.liftE e S).bind (r1.bind (r2.bind r3)), g3, (k1.trans k2).trans k3, (f1.trans f2).trans f3, by simp [b2, b1], by simp [j2, j1], ?_⟩
      rintro s' h; injection h with h; subst h
      intro g' G' H' h1 h2 h3
      rw [hs] at h1; injection h1 with h1; subst h1
      rw [hG] at h2; injection h2 with h2; subst h2
      rw [hu H' h3]
      have hlt : S.ns < S1.ns := by omega
      obtain ⟨q1, _, q2⟩ := k2.sub S.ns hlt
      exact ⟨S.ns, S1.nsh, by simp only; omega, by simp only; omega, s3, by simp only; exact s2, by simp only; rw [q2, s1], by simp only; rw [q1, p1],
        by simp only; rw [p2, hst]⟩

lemma loadLink_runs (hg : Good S F) (pre suf : String) {l : String × ULink} (hl : LinkOK l.2) :
    ∃ S', Runs (loadLink pre suf l) S (pre ++ l.1 ++ suf, S.nb) S' ∧ Good S' F ∧ Keeps S S' ∧ KeepsFresh S S' [] [] ∧
      S'.nb = S.nb + 1 ∧ S'.nj = S.nj ∧ FreshBody S'.w S.nb ∧ HasUBody S' S.nb (pre ++ l.1 ++ suf) l.2 := by
  obtain ⟨S1, r1, g1, k1, f1, fb, m1, nm1, b1, j1, s1, sh1, _⟩ := newBody_runs hg none (mass := none) (.inl rfl)
  have hM : ∃ M, massOf l.2.inertial = .ok M ∧ ∀ i H, l.2.inertial = some i → IsOrigin i.origin H → ∃ M', M = some M' ∧
      IsRigidMass M' i.mass (pos H) (rot H * inertiaOf i * (rot H)ᵀ - i.mass • (skew (pos H) * skew (pos H))) := by
    cases hi : l.2.inertial with
    | none => exact ⟨none, rfl, fun i H h => absurd h (by simp)⟩
    | some i =>
      have h := hl.inertial i hi
      obtain ⟨H, hH⟩ := h.origin
      obtain ⟨M, e, _, hr⟩ := C83_inertial hH h.mass h.ixx h.iyy h.izz h.pd
      refine ⟨some M, by simp only [massOf, e, bind, Except.bind], ?_⟩
      rintro i' H' h1 h2; injection h1 with h1; subst h1
      have : H' = H := by
        have := (toPose_origin h2).1
        rw [(toPose_origin hH).1] at this; injection this with this; exact this.symm
      subst this
      exact ⟨M, rfl, hr⟩
  obtain ⟨M, eM, hM⟩ := hM
  let S2 : RS := { S1 with bname := Function.update S1.bname S.nb (some (pre ++ l.1 ++ suf))
                           mass := (M.map (Function.update S1.mass S.nb)).getD S1.mass }
  have r2 : Runs (setBody S.nb (pre ++ l.1 ++ suf) M) S1 () S2 := by
    unfold Runs setBody; cases M <;> rfl
  have g2 : Good S2 F := by
    refine ⟨g1.tree, g1.ground, g1.bodies, ?_, g1.joints, g1.ndof⟩
    intro x hx
    obtain ⟨h1, h2⟩ := g1.frames x hx
    exact ⟨by cases h : x.1 <;> rw [h] at h1 <;> exact h1, by cases h : x.2.2 <;> rw [h] at h2 <;> exact h2⟩
  have k2 : Keeps S S2 := by
    refine ⟨k1.nb, k1.nj, k1.ns, k1.nsh, k1.ground, ?_, k1.joint, k1.sub, k1.shape, k1.subframes, k1.shapes⟩
    intro b hb
    obtain ⟨q1, q2⟩ := k1.body b hb
    refine ⟨?_, ?_⟩
    · rw [← q1]
      cases M with
      | none => rfl
      | some M => exact Function.update_of_ne (by omega) _ _
    · rw [← q2]; exact Function.update_of_ne (by omega) _ _
  have f2 : KeepsFresh S S2 [] [] := ⟨f1.body, f1.joint⟩
  obtain ⟨S3, r3, g3, k3, f3, b3, j3, sh3⟩ := loadCollision_runs g2 S.nb hl.collision
  have hlt : S.nb < S2.nb := by rw [show S2.nb = S1.nb from rfl]; omega
  obtain ⟨q1, q2⟩ := k3.body S.nb hlt
  refine ⟨S3, r1.bind ((Runs.liftE eM S1).bind (r2.bind (r3.bind (Runs.pure _ _)))), g3, k2.trans k3, f2.trans f3, b3.trans b1, j3.trans j1,
    f3.body _ fb (by simp), ?_, ?_, sh3⟩
  · rw [q2]; exact Function.update_self _ _ _
  · intro i H hi hH
    obtain ⟨M', e, hr⟩ := hM i H hi hH
    subst e
    rw [q1]
    have : S2.mass S.nb = M' := Function.update_self _ _ _
    rw [this]; exact hr

lemma loadLinks_runs (pre suf : String) (ls : List (String × ULink)) : ∀ {S : RS}, Good S F → (∀ l ∈ ls, LinkOK l.2) →
    ∃ S', Runs (loadLinks pre suf ls) S (numbered S.nb (ls.map fun l => pre ++ l.1 ++ suf)) S' ∧ Good S' F ∧ Keeps S S' ∧
      KeepsFresh S S' [] [] ∧ S'.nb = S.nb + ls.length ∧ S'.nj = S.nj ∧
      ∀ k (hk : k < ls.length), FreshBody S'.w (S.nb + k) ∧ HasUBody S' (S.nb + k) (pre ++ ls[k].1 ++ suf) ls[k].2 := by
  induction ls with
  | nil => intro S hg _; exact ⟨S, Runs.pure _ _, hg, .refl S, .refl S, rfl, rfl, fun k hk => absurd hk (by simp)⟩
  | cons l ls ih =>
    intro S hg hl
    obtain ⟨S1, r1, g1, k1, f1, b1, j1, fb, h1⟩ := loadLink_runs hg pre suf (hl l List.mem_cons_self)
    obtain ⟨S2, r2, g2, k2, f2, b2, j2, facts⟩ := ih g1 (fun x hx => hl x (List.mem_cons_of_mem _ hx))
    refine ⟨S2, ?_, g2, k1.trans k2, f1.trans f2, by simp; omega, by omega, ?_⟩
    · rw [b1] at r2
      exact r1.bind (r2.bind (Runs.pure _ _))
    · intro k hk
      rcases k with _ | k
      · exact ⟨f2.body _ fb (by simp), h1.keep k2 (by simp; omega)⟩
      · have := facts k (by simpa using hk)
        rw [b1, show S.nb + 1 + k = S.nb + (k + 1) by omega] at this
        exact this

end

/-! ### joints, in any order -/

lemma bodyObj_ext {a b : BodyObj} (h1 : a.parent = b.parent) (h2 : a.children = b.children) : a = b := by
  cases a; cases b; simp_all

/-- Besides the tree `F`, the bodies numbered from `m` to `n` are linked by the links `Ls`, whose joints are numbered
from `j0`. -/
structure Wired (m n j0 : ℕ) (F : Forest (FrameRef × ℕ × FrameRef) ℕ) (S : RS) (Ls : List (FrameRef × ℕ × FrameRef)) : Prop where
  good : Good S F
  low : ∀ b ∈ S.w.ground :: F.bodies, b < m
  lowj : ∀ j ∈ joints F, j < j0
  nb : S.nb = n
  nj : S.nj = j0 + Ls.length
  nums : Ls.map (fun l => l.2.1) = List.range' j0 Ls.length
  old : ∀ l ∈ Ls, Old S l.1 ∧ Old S l.2.2
  ends0 : ∀ l ∈ Ls, m ≤ S.o.bodyOf l.1 ∧ S.o.bodyOf l.1 < n
  ends1 : ∀ l ∈ Ls, m ≤ S.o.bodyOf l.2.2 ∧ S.o.bodyOf l.2.2 < n
  frames : ∀ l ∈ Ls, (S.w.joint l.2.1).frame0 = some l.1 ∧ (S.w.joint l.2.1).frame1 = some l.2.2
  known : ∀ l ∈ Ls, Known S.w l.1 ∧ Known S.w l.2.2
  children : ∀ b, m ≤ b → b < n → (S.w.body b).children = (Ls.filter fun l => S.o.bodyOf l.1 = b).map fun l => l.2.1
  parent_none : ∀ b, m ≤ b → b < n → (∀ l ∈ Ls, S.o.bodyOf l.2.2 ≠ b) → (S.w.body b).parent = none
  parent : ∀ l ∈ Ls, (S.w.body (S.o.bodyOf l.2.2)).parent = some l.2.1
  ndof : ∀ l ∈ Ls, S.o.ndof l.2.1 = (S.jattr l.2.1).ndof

section
variable {m n j0 : ℕ} {F : Forest (FrameRef × ℕ × FrameRef) ℕ} {S S' : RS} {Ls : List (FrameRef × ℕ × FrameRef)}

lemma Wired.lt_nj (h : Wired m n j0 F S Ls) {l : FrameRef × ℕ × FrameRef} (hl : l ∈ Ls) : l.2.1 < S.nj := by
  have : l.2.1 ∈ Ls.map (fun l => l.2.1) := List.mem_map_of_mem (f := fun l : FrameRef × ℕ × FrameRef => l.2.1) hl
  rw [h.nums, List.mem_range'_1] at this
  rw [h.nj]; omega

lemma Wired.mono (h : Wired m n j0 F S Ls) (hg : Good S' F) (hk : Keeps S S') (hb : S'.nb = S.nb) (hj : S'.nj = S.nj)
    (wb : S'.w.body = S.w.body) (wj : S'.w.joint = S.w.joint) : Wired m n j0 F S' Ls := by
  have e0 : ∀ l ∈ Ls, S'.o.bodyOf l.1 = S.o.bodyOf l.1 := fun l hl => hk.bodyOf (h.old l hl).1
  have e1 : ∀ l ∈ Ls, S'.o.bodyOf l.2.2 = S.o.bodyOf l.2.2 := fun l hl => hk.bodyOf (h.old l hl).2
  refine ⟨hg, by rw [hk.ground]; exact h.low, h.lowj, hb.trans h.nb, hj.trans h.nj, h.nums, fun l hl => ⟨hk.old (h.old l hl).1, hk.old (h.old l hl).2⟩,
    ?_, ?_, by rw [wj]; exact h.frames, fun l hl => ⟨(h.known l hl).1.mono hk.subframes, (h.known l hl).2.mono hk.subframes⟩, ?_, ?_, ?_, ?_⟩
  · intro l hl; rw [e0 l hl]; exact h.ends0 l hl
  · intro l hl; rw [e1 l hl]; exact h.ends1 l hl
  · intro b h1 h2
    rw [wb, h.children b h1 h2]
    congr 1
    apply List.filter_congr
    intro l hl; rw [e0 l hl]
  · intro b h1 h2 h3
    rw [wb]
    exact h.parent_none b h1 h2 (fun l hl => by rw [← e1 l hl]; exact h3 l hl)
  · intro l hl; rw [e1 l hl, wb]; exact h.parent l hl
  · intro l hl
    obtain ⟨q1, _, q2⟩ := hk.joint l.2.1 (h.lt_nj hl)
    rw [q1, q2]; exact h.ndof l hl

lemma Wired.link (h : Wired m n j0 F S Ls) {f0 f1 : FrameRef} (o0 : Old S f0) (o1 : Old S f1) (h0 : m ≤ S.o.bodyOf f0 ∧ S.o.bodyOf f0 < n)
    (h1 : m ≤ S.o.bodyOf f1 ∧ S.o.bodyOf f1 < n) (hc : ∀ l ∈ Ls, S.o.bodyOf l.2.2 ≠ S.o.bodyOf f1) (a : JAttr) (name : Option String) :
    ∃ S1 S2, Runs (newJoint a name) S S.nj S1 ∧ Runs (Build.link f0 S.nj f1) S1 () S2 ∧ Wired m n j0 F S2 (Ls ++ [(f0, S.nj, f1)]) ∧
      Keeps S S2 ∧ S2.jattr S.nj = a ∧ S2.jname S.nj = name ∧ S2.o.bodyOf f0 = S.o.bodyOf f0 ∧ S2.o.bodyOf f1 = S.o.bodyOf f1 ∧ S2.bposeOf = S.bposeOf := by
  obtain ⟨S1, r1, g1, k1, _, _, ja, jn, jd, b1, j1, s1, _, _⟩ := newJoint_runs h.good a name
  have eS : S1 = { S with nj := S.nj + 1, o := { S.o with ndof := Function.update S.o.ndof S.nj a.ndof }, jattr := Function.update S.jattr S.nj a, jname := Function.update S.jname S.nj name, w := { S.w with joint := Function.update S.w.joint S.nj {} } } := by
    have := r1; unfold Runs newJoint at this
    injection this with this
    injection this with _ this
    exact this.symm
  have wb : S1.w.body = S.w.body := by rw [eS]
  have wj : ∀ k, k ≠ S.nj → S1.w.joint k = S.w.joint k := by intro k hk; rw [eS]; exact Function.update_of_ne hk _ _
  have wn : S1.w.joint S.nj = {} := by rw [eS]; exact Function.update_self _ _ _
  have eo : ∀ f, S1.o.bodyOf f = S.o.bodyOf f := by intro f; rw [eS]; cases f <;> rfl
  have ep : S1.bposeOf = S.bposeOf := by rw [eS]; funext f; cases f <;> rfl
  have wg : S1.w.ground = S.w.ground := k1.ground
  have hp : (S1.w.body (S1.o.bodyOf f1)).parent = none := by
    rw [wb, eo]; exact h.parent_none _ h1.1 h1.2 hc
  obtain ⟨w', e, eg, ej, ef0, ef1, epar, ech, hkn, hk0, hk1, esh, _, _⟩ := addLink1_effect (f0 := f0) (j := S.nj) hp
  have r2 : Runs (Build.link f0 S.nj f1) S1 () { S1 with w := w' } := by
    have : addLink S1.o S1.w [.frame f0, .joint S.nj, .frame f1] = (w', .ok ()) := by
      unfold addLink
      simp only [wn, List.length_nil, Nat.zero_mod, and_self, if_true, e, gt_iff_lt, lt_irrefl, if_false]
    unfold Runs Build.link; rw [this]
  have hFb : ∀ b ∈ S1.w.ground :: F.bodies, w'.body b = S1.w.body b := by
    intro b hb
    rw [wg] at hb
    have hlt := h.low b hb
    apply bodyObj_ext
    · rw [epar, if_neg]; rw [eo]; have := h1.1; omega
    · rw [ech, if_neg]; rw [eo]; have := h0.1; omega
  have ksub : ∀ f ∈ S1.w.subframes, f ∈ w'.subframes := fun f hf => hkn (.sub f) hf
  have k2 : Keeps S1 { S1 with w := w' } := keeps_world eg ksub (fun s hs => by rw [esh]; exact hs)
  have g2 : Good { S1 with w := w' } F := by
    refine ⟨?_, by rw [show ({ S1 with w := w' } : RS).w.ground = w'.ground from rfl, eg]; exact g1.ground, g1.bodies,
      fun l hl => good_old (g1.frames l hl), g1.joints, g1.ndof⟩
    refine g1.tree.congr eg hFb ?_ (fun _ _ => ⟨rfl, rfl⟩)
    intro k hk
    exact ej k (by have := h.good.joints k hk; omega)
  have k12 := k1.trans k2
  refine ⟨S1, { S1 with w := w' }, r1, r2, ?_, k12, ja, jn, eo f0, eo f1, ep⟩
  have lt := fun l hl => h.lt_nj (l := l) hl
  have bnew : ∀ l ∈ Ls ++ [(f0, S.nj, f1)], l ∈ Ls ∨ l = (f0, S.nj, f1) := by intro l hl; simpa using hl
  refine ⟨g2, ?_, h.lowj, b1.trans h.nb, ?_, ?_, ?_, ?_, ?_, ?_, ?_, ?_, ?_, ?_, ?_⟩
  · rw [show ({ S1 with w := w' } : RS).w.ground = w'.ground from rfl, eg, wg]; exact h.low
  · change S1.nj = _; rw [j1, h.nj]; simp; omega
  · rw [List.map_append, h.nums, List.length_append, List.length_singleton, List.range'_concat, h.nj]; simp
  · intro l hl
    rcases bnew l hl with hl | rfl
    · exact ⟨k12.old (h.old l hl).1, k12.old (h.old l hl).2⟩
    · exact ⟨k12.old o0, k12.old o1⟩
  · intro l hl
    change m ≤ S1.o.bodyOf l.1 ∧ S1.o.bodyOf l.1 < n
    rw [eo]
    rcases bnew l hl with hl | rfl
    · exact h.ends0 l hl
    · exact h0
  · intro l hl
    change m ≤ S1.o.bodyOf l.2.2 ∧ S1.o.bodyOf l.2.2 < n
    rw [eo]
    rcases bnew l hl with hl | rfl
    · exact h.ends1 l hl
    · exact h1
  · intro l hl
    change (w'.joint l.2.1).frame0 = _ ∧ (w'.joint l.2.1).frame1 = _
    rcases bnew l hl with hl | rfl
    · have : l.2.1 ≠ S.nj := by have := lt l hl; omega
      rw [ej _ this, wj _ this]; exact h.frames l hl
    · exact ⟨ef0, ef1⟩
  · intro l hl
    change Known w' _ ∧ Known w' _
    rcases bnew l hl with hl | rfl
    · exact ⟨(h.known l hl).1.mono k12.subframes, (h.known l hl).2.mono k12.subframes⟩
    · exact ⟨hk0, hk1⟩
  · intro b hb1 hb2
    change (w'.body b).children = List.map _ (List.filter (fun l : FrameRef × ℕ × FrameRef => decide (S1.o.bodyOf l.1 = b)) _)
    simp only [eo]
    rw [ech, wb, eo, h.children b hb1 hb2, List.filter_append, List.map_append]
    by_cases hq : b = S.o.bodyOf f0
    · rw [if_pos hq]; simp [hq]
    · rw [if_neg hq]; simp [Ne.symm hq]
  · intro b hb1 hb2 hb3
    change (w'.body b).parent = none
    rw [epar, if_neg, wb]
    · refine h.parent_none b hb1 hb2 ?_
      intro l hl
      have := hb3 l (List.mem_append_left _ hl)
      change S1.o.bodyOf l.2.2 ≠ b at this
      rwa [eo] at this
    · have := hb3 (f0, S.nj, f1) (by simp)
      exact fun e => this e.symm
  · intro l hl
    change (w'.body (S1.o.bodyOf l.2.2)).parent = _
    rw [epar]
    simp only [eo]
    rcases bnew l hl with hl | rfl
    · rw [if_neg (hc l hl), wb]; exact h.parent l hl
    · rw [if_pos rfl]
  · intro l hl
    change S1.o.ndof l.2.1 = (S1.jattr l.2.1).ndof
    rcases bnew l hl with hl | rfl
    · obtain ⟨q1, _, q2⟩ := k1.joint l.2.1 (lt l hl)
      rw [q1, q2]; exact h.ndof l hl
    · rw [ja, jd]

/-- a joint that can be read -/
structure Spec.JointOK (save : Bool) (u : UJoint) : Prop where
  origin : ∃ H, IsOrigin u.origin H
  axis : ∃ a, u.axis = some a ∧ (u.joint_type = .revolute ∨ u.joint_type = .prismatic → norm3 a = 1)
  type : u.joint_type = .revolute ∨ u.joint_type = .prismatic ∨ u.joint_type = .fixed ∨ u.joint_type = .floating
  limits : save = true → u.joint_type = .revolute ∨ u.joint_type = .prismatic → u.limits ≠ none

/-- the link made for a joint: it goes from the body of the parent to the body of the child, bears the name of the joint,
and moves the child, relative to the parent, as described by the model -/
structure Spec.HasUJoint (S : RS) (bodies : List (String × ℕ)) (pre suf : String) (x : String × UJoint) (l : FrameRef × ℕ × FrameRef) : Prop where
  parent : bodies.lookup x.2.parent = some (S.o.bodyOf l.1)
  child : bodies.lookup x.2.child = some (S.o.bodyOf l.2.2)
  name : S.jname l.2.1 = some (pre ++ x.1 ++ suf)
  moves : ∀ H a, IsOrigin x.2.origin H → x.2.axis = some a → x.2.joint_type = .revolute ∨ x.2.joint_type = .prismatic →
    ∃ k a', S.jattr l.2.1 = .zero k ∧ k.ndof = 1 ∧ AxisUsed a a' ∧
      ∀ q, S.bposeOf l.1 * (k.pose (fun _ => q) * invBody (S.bposeOf l.2.2)) = H * motion x.2.joint_type a' q
  fixed : ∀ H, IsOrigin x.2.origin H → x.2.joint_type = .fixed → S.jattr l.2.1 = .fixed ∧ S.bposeOf l.1 = H ∧ S.bposeOf l.2.2 = 1
  floating : ∀ H, IsOrigin x.2.origin H → x.2.joint_type = .floating → S.jattr l.2.1 = .free 1 0 ∧ S.bposeOf l.1 = H ∧ S.bposeOf l.2.2 = 1

lemma Spec.HasUJoint.keep (hk : Keeps S S') {bodies pre suf x l} (h : HasUJoint S bodies pre suf x l) (hj : l.2.1 < S.nj) (h0 : Old S l.1) (h1 : Old S l.2.2) :
    HasUJoint S' bodies pre suf x l := by
  obtain ⟨q1, q2, _⟩ := hk.joint _ hj
  exact ⟨by rw [hk.bodyOf h0]; exact h.parent, by rw [hk.bodyOf h1]; exact h.child, by rw [q2]; exact h.name,
    by rw [q1, hk.bposeOf h0, hk.bposeOf h1]; exact h.moves, by rw [q1, hk.bposeOf h0, hk.bposeOf h1]; exact h.fixed,
    by rw [q1, hk.bposeOf h0, hk.bposeOf h1]; exact h.floating⟩

/-- the limits registered for a joint -/
noncomputable def Spec.limitOf (save : Bool) (u : UJoint) (j : ℕ) : List (ℕ × ℝ × ℝ) :=
  if save = true ∧ (u.joint_type = .revolute ∨ u.joint_type = .prismatic) then
    match u.limits.bind range with
    | some r => [(j, r)]
    | none => []
  else []

lemma jointLimits_ok {save : Bool} {u : UJoint} (h : JointOK save u) (j : ℕ) : Urdf.jointLimits save u j = .ok (limitOf save u j) := by
  unfold Urdf.jointLimits limitOf
  split
  · rename_i hs
    obtain ⟨L, hL⟩ := Option.ne_none_iff_exists'.mp (h.limits hs.1 hs.2)
    simp only [hL, Option.bind_some, range]
    cases L.lower <;> cases L.upper <;> rfl
  · rfl

lemma origin_unique {o : Option UPose} {H H' : Mat4} (h : IsOrigin o H) (h' : IsOrigin o H') : H' = H := by
  have := (toPose_origin h').1
  rw [(toPose_origin h).1] at this; injection this with this; exact this.symm

lemma toJoint_ok {sort : Vec3 → Equiv.Perm (Fin 3)} (hs : ∀ v, IsArgsortAbs v (sort v)) {save : Bool} {u : UJoint} (h : JointOK save u) :
    ∃ d, toJoint sort u = .ok d ∧ d.parent = u.parent ∧ d.child = u.child ∧ IsRigid d.H_parent_child ∧ IsRigid (d.H_child_joint.getD 1) ∧
      (∀ H a, IsOrigin u.origin H → u.axis = some a → u.joint_type = .revolute ∨ u.joint_type = .prismatic →
        ∃ k a', d.type = .zero k ∧ k.ndof = 1 ∧ AxisUsed a a' ∧
          ∀ q, d.H_parent_child * d.H_child_joint.getD 1 * (k.pose (fun _ => q) * invBody (d.H_child_joint.getD 1)) = H * motion u.joint_type a' q) ∧
      (∀ H, IsOrigin u.origin H → u.joint_type = .fixed → d.type = .fixed ∧ d.H_parent_child = H ∧ d.H_child_joint = none) ∧
      (∀ H, IsOrigin u.origin H → u.joint_type = .floating → d.type = .free 1 0 ∧ d.H_parent_child = H ∧ d.H_child_joint = none) := by
  obtain ⟨H, hH⟩ := h.origin
  obtain ⟨a, ha, hn⟩ := h.axis
  have hr := (toPose_origin hH).2
  obtain ⟨c1, c2, _⟩ := C69_other sort hH ha
  have ht := h.type
  by_cases hm : u.joint_type = .revolute ∨ u.joint_type = .prismatic
  · obtain ⟨K, k, a', e, h1, h2, h3, h4⟩ := C69_joint hs hH ha (hn hm) hm
    refine ⟨_, e, rfl, rfl, hr, h3, ?_, ?_, ?_⟩
    · intro H' a0 hH' ha0 _
      rw [origin_unique hH hH']
      rw [ha] at ha0; injection ha0 with ha0; subst ha0
      exact ⟨k, a', rfl, h2, h1, h4⟩
    · intro H' _ hf; rw [hf] at hm; simp at hm
    · intro H' _ hf; rw [hf] at hm; simp at hm
  · by_cases hf : u.joint_type = .fixed
    · refine ⟨_, c1 hf, rfl, rfl, hr, isRigid_one, fun _ _ _ _ hm' => absurd hm' hm, ?_, ?_⟩
      · intro H' hH' _; exact ⟨rfl, (origin_unique hH hH').symm, rfl⟩
      · intro H' _ hf'; rw [hf] at hf'; exact absurd hf' (by simp)
    · have hfl : u.joint_type = .floating := by tauto
      refine ⟨_, c2 hfl, rfl, rfl, hr, isRigid_one, fun _ _ _ _ hm' => absurd hm' hm, ?_, ?_⟩
      · intro H' _ hf'; exact absurd hf' hf
      · intro H' hH' _; exact ⟨rfl, (origin_unique hH hH').symm, rfl⟩

lemma jointFrames_runs (h : Wired m n j0 F S Ls) {p c : ℕ} (hc : c < n) {d : JointDict} (h1 : IsRigid d.H_parent_child)
    (h2 : IsRigid (d.H_child_joint.getD 1)) :
    ∃ S' f0 f1, Runs (jointFrames p c d) S (f0, f1) S' ∧ Wired m n j0 F S' Ls ∧ Keeps S S' ∧ S'.nj = S.nj ∧ Old S' f0 ∧ Old S' f1 ∧
      S'.o.bodyOf f0 = p ∧ S'.o.bodyOf f1 = c ∧ S'.bposeOf f0 = d.H_parent_child * d.H_child_joint.getD 1 ∧ S'.bposeOf f1 = d.H_child_joint.getD 1 := by
  obtain ⟨pa, ch, H, K, t⟩ := d
  cases K with
  | none =>
    simp only [Option.getD_none] at h1 h2 ⊢
    obtain ⟨S1, r1, g1, k1, _, s1, p1, _, b1, j1, n1, sh1, w1⟩ := newSub_runs h.good p h1.ishom none
    refine ⟨S1, .sub S.ns, .body c, r1.bind (Runs.pure _ _), h.mono g1 k1 b1 j1 (by rw [w1]) (by rw [w1]), k1, j1, ?_, ?_, s1, rfl, ?_, rfl⟩
    · change S.ns < S1.ns; omega
    · change c < S1.nb; rw [b1, h.nb]; exact hc
    · rw [Matrix.mul_one]; exact p1
  | some K =>
    simp only [Option.getD_some] at h1 h2 ⊢
    obtain ⟨S1, r1, g1, k1, _, s1, p1, _, b1, j1, n1, sh1, w1⟩ := newSub_runs h.good p (h1.mul h2).ishom none
    obtain ⟨S2, r2, g2, k2, _, s2, p2, _, b2, j2, n2, sh2, w2⟩ := newSub_runs g1 c h2.ishom none
    have hw1 := h.mono g1 k1 b1 j1 (by rw [w1]) (by rw [w1])
    have o1 : Old S1 (.sub S.ns) := by change S.ns < S1.ns; omega
    refine ⟨S2, .sub S.ns, .sub S1.ns, r1.bind (r2.bind (Runs.pure _ _)), hw1.mono g2 k2 b2 j2 (by rw [w2]) (by rw [w2]), k1.trans k2, j2.trans j1,
      k2.old o1, ?_, ?_, s2, ?_, p2⟩
    · change S1.ns < S2.ns; omega
    · rw [k2.bodyOf o1]; exact s1
    · rw [k2.bposeOf o1]; exact p1

lemma loadJoint_runs {sort : Vec3 → Equiv.Perm (Fin 3)} (hs : ∀ v, IsArgsortAbs v (sort v)) (pre suf : String) {save : Bool}
    {bodies : List (String × ℕ)} {x : String × UJoint} (hx : JointOK save x.2) (h : Wired m n j0 F S Ls) {p c : ℕ}
    (hp : bodies.lookup x.2.parent = some p) (hc : bodies.lookup x.2.child = some c) (hpN : m ≤ p ∧ p < n) (hcN : m ≤ c ∧ c < n)
    (hnew : ∀ l ∈ Ls, S.o.bodyOf l.2.2 ≠ c) :
    ∃ S' l, Runs (loadJoint sort pre suf save bodies x) S (limitOf save x.2 S.nj) S' ∧ Wired m n j0 F S' (Ls ++ [l]) ∧ Keeps S S' ∧
      HasUJoint S' bodies pre suf x l ∧ l.2.1 = S.nj ∧ S'.nj = S.nj + 1 := by
  obtain ⟨d, ed, e1, e2, r1, r2, m1, m2, m3⟩ := toJoint_ok hs hx
  obtain ⟨S1, f0, f1, rf, w1, k1, j1, o0, o1, b0, b1, p0, p1⟩ := jointFrames_runs h (p := p) hcN.2 r1 r2
  have hnew1 : ∀ l ∈ Ls, S1.o.bodyOf l.2.2 ≠ S1.o.bodyOf f1 := by
    intro l hl
    rw [k1.bodyOf (h.old l hl).2, b1]; exact hnew l hl
  obtain ⟨S2, S3, rn, rl, w3, k3, ja, jn, bb0, bb1, bp⟩ := w1.link o0 o1 (b0 ▸ hpN) (b1 ▸ hcN) hnew1 d.type (some (pre ++ x.1 ++ suf))
  refine ⟨S3, (f0, S1.nj, f1), ?_, w3, k1.trans k3, ?_, j1, ?_⟩
  · refine (Runs.liftE ed S).bind ((byName_runs (by rw [e1]; exact hp) S).bind ((byName_runs (by rw [e2]; exact hc) S).bind (rf.bind (rn.bind (rl.bind ?_)))))
    rw [← j1]
    exact Runs.liftE (jointLimits_ok hx _) S3
  · refine ⟨?_, ?_, jn, ?_, ?_, ?_⟩
    · change _ = some (S3.o.bodyOf f0); rw [bb0, b0]; exact hp
    · change _ = some (S3.o.bodyOf f1); rw [bb1, b1]; exact hc
    · intro H a hH ha ht
      obtain ⟨k, a', q1, q2, q3, q4⟩ := m1 H a hH ha ht
      refine ⟨k, a', by rw [← q1]; exact ja, q2, q3, ?_⟩
      intro q
      simp only [bp, p0, p1]; exact q4 q
    · intro H hH ht
      obtain ⟨q1, q2, q3⟩ := m2 H hH ht
      refine ⟨by rw [← q1]; exact ja, ?_, ?_⟩
      · simp only [bp, p0, q2, q3]; simp
      · simp only [bp, p1, q3]; rfl
    · intro H hH ht
      obtain ⟨q1, q2, q3⟩ := m3 H hH ht
      refine ⟨by rw [← q1]; exact ja, ?_, ?_⟩
      · simp only [bp, p0, q2, q3]; simp
      · simp only [bp, p1, q3]; rfl
  · rw [w3.nj, h.nj]; simp; omega

lemma loadJoints_runs {sort : Vec3 → Equiv.Perm (Fin 3)} (hs : ∀ v, IsArgsortAbs v (sort v)) (pre suf : String) {save : Bool}
    {bodies : List (String × ℕ)} (js : List (String × UJoint)) : ∀ {S : RS} {Ls : List (FrameRef × ℕ × FrameRef)}, (∀ x ∈ js, JointOK save x.2) →
    Wired m n j0 F S Ls → (∀ x ∈ js, ∃ p c, bodies.lookup x.2.parent = some p ∧ bodies.lookup x.2.child = some c ∧ (m ≤ p ∧ p < n) ∧ (m ≤ c ∧ c < n)) →
    (js.map fun x => bodies.lookup x.2.child).Nodup → (∀ x ∈ js, ∀ l ∈ Ls, bodies.lookup x.2.child ≠ some (S.o.bodyOf l.2.2)) →
    ∃ S' Ls', Runs (loadJoints sort pre suf save bodies js) S ((js.zipIdx S.nj).flatMap fun x => limitOf save x.1.2 x.2) S' ∧
      Wired m n j0 F S' (Ls ++ Ls') ∧ Keeps S S' ∧ List.Forall₂ (HasUJoint S' bodies pre suf) js Ls' := by
  induction js with
  | nil => intro S Ls _ h _ _ _; exact ⟨S, [], Runs.pure _ _, by simpa using h, .refl S, .nil⟩
  | cons x js ih =>
    intro S Ls hok h hb hn hd
    obtain ⟨p, c, hp, hc, hpN, hcN⟩ := hb x List.mem_cons_self
    rw [List.map_cons, List.nodup_cons] at hn
    obtain ⟨S1, l, r1, w1, k1, u1, e1, j1⟩ := loadJoint_runs hs pre suf (hok x List.mem_cons_self) h hp hc hpN hcN (by
      intro l hl e
      exact hd x List.mem_cons_self l hl (by rw [e, hc]))
    obtain ⟨S2, Ls', r2, w2, k2, u2⟩ := ih (fun y hy => hok y (List.mem_cons_of_mem _ hy)) w1 (fun y hy => hb y (List.mem_cons_of_mem _ hy)) hn.2 (by
      intro y hy l' hl'
      rcases List.mem_append.mp hl' with hl' | hl'
      · rw [k1.bodyOf (h.old l' hl').2]; exact hd y (List.mem_cons_of_mem _ hy) l' hl'
      · simp only [List.mem_singleton] at hl'; subst hl'
        rw [← u1.child]
        intro e
        exact hn.1 (List.mem_map.mpr ⟨y, hy, e⟩))
    refine ⟨S2, l :: Ls', ?_, by simpa using w2, k1.trans k2, .cons (u1.keep k2 (w1.lt_nj (by simp)) (w1.old l (by simp)).1 (w1.old l (by simp)).2) u2⟩
    rw [List.zipIdx_cons, List.flatMap_cons]
    rw [j1] at r2
    exact r1.bind (r2.bind (Runs.pure _ _))

/-! ### the tree -/

lemma Spec.Unfolds.links_mem {o : Objs} {w : World} {b js G} (h : Unfolds o w b js G) : ∀ l ∈ G.links,
    (w.joint l.2.1).frame0 = some l.1 ∧ (w.joint l.2.1).frame1 = some l.2.2 ∧ (l.2.1 ∈ js ∨ ∃ c ∈ G.bodies, l.2.1 ∈ (w.body c).children) := by
  induction h with
  | nil => simp [Forest.links]
  | @cons b j js f0 f1 ch sib h0 h1 hb hp hch hsib ih1 ih2 =>
    intro l hl
    simp only [Forest.links, List.cons_append, List.mem_cons, List.mem_append] at hl
    simp only [Forest.bodies, List.cons_append, List.mem_cons, List.mem_append]
    rcases hl with rfl | hl | hl
    · exact ⟨h0, h1, .inl (.inl rfl)⟩
    · obtain ⟨a, b', c⟩ := ih1 l hl
      refine ⟨a, b', .inr ?_⟩
      rcases c with c | ⟨x, hx, c⟩
      · exact ⟨_, .inl rfl, c⟩
      · exact ⟨x, .inr (.inl hx), c⟩
    · obtain ⟨a, b', c⟩ := ih2 l hl
      refine ⟨a, b', ?_⟩
      rcases c with c | ⟨x, hx, c⟩
      · exact .inl (.inr c)
      · exact .inr ⟨x, .inr (.inr hx), c⟩

lemma Spec.Unfolds.links_of {o : Objs} {w : World} {b js G} (h : Unfolds o w b js G) : ∀ j,
    (j ∈ js ∨ ∃ c ∈ G.bodies, j ∈ (w.body c).children) → ∃ l ∈ G.links, l.2.1 = j := by
  induction h with
  | nil => simp [Forest.bodies]
  | @cons b j js f0 f1 ch sib h0 h1 hb hp hch hsib ih1 ih2 =>
    intro k hk
    simp only [Forest.bodies, List.cons_append, List.mem_cons, List.mem_append] at hk
    simp only [Forest.links, List.cons_append, List.mem_cons, List.mem_append]
    rcases hk with (rfl | hk) | ⟨c, rfl | hc | hc, hk⟩
    · exact ⟨_, .inl rfl, rfl⟩
    · obtain ⟨l, hl, e⟩ := ih2 k (.inl hk); exact ⟨l, .inr (.inr hl), e⟩
    · obtain ⟨l, hl, e⟩ := ih1 k (.inl hk); exact ⟨l, .inr (.inl hl), e⟩
    · obtain ⟨l, hl, e⟩ := ih1 k (.inr ⟨c, hc, hk⟩); exact ⟨l, .inr (.inl hl), e⟩
    · obtain ⟨l, hl, e⟩ := ih2 k (.inr ⟨c, hc, hk⟩); exact ⟨l, .inr (.inr hl), e⟩

lemma depth_le_bodies {L B : Type} (F : Forest L B) : depth F ≤ F.bodies.length := by
  induction F with
  | nil => simp [depth]
  | cons l b ch sib ih1 ih2 =>
    simp only [depth, Forest.bodies, List.cons_append, List.length_cons, List.length_append]
    omega

lemma Wired.tree (h : Wired m n j0 F S Ls) {b0 : ℕ} (hb0 : m ≤ b0 ∧ b0 < n) (htop : ∀ l ∈ Ls, S.o.bodyOf l.2.2 ≠ b0) {rank : ℕ → ℕ}
    (hrank : ∀ l ∈ Ls, rank (S.o.bodyOf l.1) < rank (S.o.bodyOf l.2.2)) (hall : ∀ b, m ≤ b → b < n → b ≠ b0 → ∃ l ∈ Ls, S.o.bodyOf l.2.2 = b) :
    ∃ G, Unfolds S.o S.w b0 (S.w.body b0).children G ∧ (b0 :: G.bodies).Nodup ∧ (joints G).Nodup ∧
      (∀ b, b ∈ b0 :: G.bodies ↔ m ≤ b ∧ b < n) ∧ G.links.Perm Ls := by
  classical
  let w : World := { S.w with ground := b0
                              body := fun b => if m ≤ b ∧ b < n then S.w.body b else {}
                              joint := fun j => if j ∈ Ls.map (fun l => l.2.1) then S.w.joint j else {} }
  have wb : ∀ b, m ≤ b ∧ b < n → w.body b = S.w.body b := fun b hb => if_pos hb
  have wb' : ∀ b, ¬ (m ≤ b ∧ b < n) → w.body b = {} := fun b hb => if_neg hb
  have wj : ∀ l ∈ Ls, w.joint l.2.1 = S.w.joint l.2.1 := fun l hl => if_pos (List.mem_map_of_mem (f := fun l : FrameRef × ℕ × FrameRef => l.2.1) hl)
  have kid : ∀ b j, j ∈ (w.body b).children ↔ ∃ l ∈ Ls, l.2.1 = j ∧ S.o.bodyOf l.1 = b := by
    intro b j
    by_cases hb : m ≤ b ∧ b < n
    · rw [wb b hb, h.children b hb.1 hb.2]
      simp only [List.mem_map, List.mem_filter, decide_eq_true_eq]
      constructor
      · rintro ⟨l, ⟨h1, h2⟩, h3⟩; exact ⟨l, h1, h3, h2⟩
      · rintro ⟨l, h1, h3, h2⟩; exact ⟨l, ⟨h1, h2⟩, h3⟩
    · rw [wb' b hb]
      simp only [List.not_mem_nil, false_iff]
      rintro ⟨l, hl, _, e⟩
      exact hb (e ▸ h.ends0 l hl)
  have par : ∀ b j, (w.body b).parent = some j ↔ ∃ l ∈ Ls, l.2.1 = j ∧ S.o.bodyOf l.2.2 = b := by
    intro b j
    by_cases hb : m ≤ b ∧ b < n
    · rw [wb b hb]
      constructor
      · intro hp
        by_cases hq : ∃ l ∈ Ls, S.o.bodyOf l.2.2 = b
        · obtain ⟨l, hl, e⟩ := hq
          have := h.parent l hl
          rw [e, hp] at this; injection this with this
          exact ⟨l, hl, this.symm, e⟩
        · push Not at hq
          rw [h.parent_none b hb.1 hb.2 hq] at hp; exact absurd hp (by simp)
      · rintro ⟨l, hl, rfl, rfl⟩; exact h.parent l hl
    · rw [wb' b hb]
      constructor
      · intro hp; exact absurd hp (by simp)
      · rintro ⟨l, hl, _, e⟩; exact absurd (e ▸ h.ends1 l hl) hb
  have hnd : (Ls.map (fun l => l.2.1)).Nodup := by rw [h.nums]; exact List.nodup_range'
  have hg : GInv S.o w := by
    refine ⟨?_, ?_, ?_, ⟨Ls.map (fun l => l.2.1), ?_⟩, ?_, ?_⟩
    · intro b j hj
      obtain ⟨l, hl, rfl, rfl⟩ := (kid b j).mp hj
      exact ⟨l.1, l.2.2, by rw [wj l hl]; exact (h.frames l hl).1, by rw [wj l hl]; exact (h.frames l hl).2, rfl, (par _ _).mpr ⟨l, hl, rfl, rfl⟩⟩
    · intro b j hj
      obtain ⟨l, hl, rfl, rfl⟩ := (par b j).mp hj
      exact ⟨l.1, l.2.2, by rw [wj l hl]; exact (h.frames l hl).1, by rw [wj l hl]; exact (h.frames l hl).2, rfl, (kid _ _).mpr ⟨l, hl, rfl, rfl⟩⟩
    · intro b
      by_cases hb : m ≤ b ∧ b < n
      · rw [wb b hb, h.children b hb.1 hb.2]
        exact hnd.sublist ((List.filter_sublist (l := Ls)).map _)
      · rw [wb' b hb]; simp
    · intro j hj
      by_contra hc
      exact hj (by rw [show w.joint j = {} from if_neg hc])
    · rw [show w.ground = b0 from rfl, wb b0 hb0]
      exact h.parent_none b0 hb0.1 hb0.2 htop
    · intro b j hj f hf
      obtain ⟨l, hl, rfl, rfl⟩ := (kid b j).mp hj
      rw [wj l hl, (h.frames l hl).1, (h.frames l hl).2] at hf
      rcases hf with hf | hf <;> injection hf with hf <;> subst hf
      · exact (h.known l hl).1.mono (fun _ h => h)
      · exact (h.known l hl).2.mono (fun _ h => h)
  obtain ⟨G, hG⟩ := hg.isTree
  have reach : ∀ b, m ≤ b ∧ b < n → ∃ p, RPath S.o w p b := by
    have : ∀ k b, rank b = k → m ≤ b ∧ b < n → ∃ p, RPath S.o w p b := by
      intro k
      induction k using Nat.strong_induction_on with
      | _ k ih =>
        intro b hk hb
        by_cases e : b = b0
        · subst e; exact ⟨[], .root⟩
        · obtain ⟨l, hl, rfl⟩ := hall b hb.1 hb.2 e
          obtain ⟨p, hp⟩ := ih _ (by rw [← hk]; exact hrank l hl) _ rfl (h.ends0 l hl)
          exact ⟨_, .step hp ((kid _ _).mpr ⟨l, hl, rfl, rfl⟩) (by rw [wj l hl]; exact (h.frames l hl).2)⟩
    exact fun b hb => this _ b rfl hb
  have hN : ∀ b, b ∈ b0 :: G.bodies ↔ m ≤ b ∧ b < n := by
    intro b
    rw [show b0 = w.ground from rfl, hG.mem_iff hg]
    constructor
    · rintro ⟨p, hp⟩
      cases p with
      | nil => rw [hp.nil_inv]; exact hb0
      | cons j p =>
        obtain ⟨b', f, _, hj, hf, rfl⟩ := hp.cons_inv
        obtain ⟨l, hl, rfl, rfl⟩ := (kid _ _).mp hj
        rw [wj l hl, (h.frames l hl).2] at hf; injection hf with hf; subst hf
        exact h.ends1 l hl
    · exact reach b
  have lmem : ∀ l, l ∈ G.links ↔ l ∈ Ls := by
    intro l
    constructor
    · intro hl
      obtain ⟨a1, a2, a3⟩ := hG.unfolds.links_mem l hl
      have : ∃ b, l.2.1 ∈ (w.body b).children := by
        rcases a3 with a3 | ⟨c, _, a3⟩
        · exact ⟨_, a3⟩
        · exact ⟨_, a3⟩
      obtain ⟨b, hb⟩ := this
      obtain ⟨l', hl', e, _⟩ := (kid _ _).mp hb
      have e1 := (h.frames l' hl').1
      have e2 := (h.frames l' hl').2
      rw [← wj l' hl', e, a1] at e1
      rw [← wj l' hl', e, a2] at e2
      injection e1 with e1; injection e2 with e2
      have : l = l' := by
        obtain ⟨x, y, z⟩ := l; obtain ⟨x', y', z'⟩ := l'
        simp only at e e1 e2
        rw [e, e1, e2]
      rw [this]; exact hl'
    · intro hl
      have hk := (kid _ _).mpr ⟨l, hl, rfl, rfl⟩
      have : ∃ l' ∈ G.links, l'.2.1 = l.2.1 := by
        apply hG.unfolds.links_of
        rcases List.mem_cons.mp ((hN _).mpr (h.ends0 l hl)) with e | e
        · left; rw [e] at hk; exact hk
        · right; exact ⟨_, e, hk⟩
      obtain ⟨l', hl', e⟩ := this
      obtain ⟨a1, a2, _⟩ := hG.unfolds.links_mem l' hl'
      rw [e, wj l hl] at a1 a2
      rw [(h.frames l hl).1] at a1
      rw [(h.frames l hl).2] at a2
      injection a1 with a1; injection a2 with a2
      have : l = l' := by
        obtain ⟨x, y, z⟩ := l; obtain ⟨x', y', z'⟩ := l'
        simp only at e a1 a2
        rw [e, a1, a2]
      rw [this]; exact hl'
  refine ⟨G, ?_, hG.bodies_nodup, hG.joints_nodup, hN, ?_⟩
  · have hu := hG.unfolds
    rw [show w.ground = b0 from rfl, wb b0 hb0] at hu
    refine hu.congr ?_ ?_ (fun _ _ => ⟨rfl, rfl⟩)
    · intro c hc
      exact (wb c ((hN c).mp (List.mem_cons_of_mem _ hc))).symm
    · intro j hj
      obtain ⟨l, hl, rfl⟩ := List.mem_map.mp hj
      exact (wj l ((lmem l).mp hl)).symm
  · rw [List.perm_ext_iff_of_nodup (List.Nodup.of_map _ hG.joints_nodup) (List.Nodup.of_map _ hnd)]
    exact lmem

lemma Unfolds.snocTree {o : Objs} {w : World} {b js F G} (h : Unfolds o w b js F) {f0 f1 : FrameRef} {j : ℕ}
    (h0 : (w.joint j).frame0 = some f0) (h1 : (w.joint j).frame1 = some f1) (hb : o.bodyOf f0 = b)
    (hp : (w.body (o.bodyOf f1)).parent = some j) (hc : Unfolds o w (o.bodyOf f1) (w.body (o.bodyOf f1)).children G) :
    Unfolds o w b (js ++ [j]) (F.append (.cons (f0, j, f1) (o.bodyOf f1) G .nil)) := by
  induction h with
  | nil => exact .cons h0 h1 hb hp hc (.nil _)
  | cons g0 g1 gb gp gch gsib _ ihs => exact .cons g0 g1 gb gp gch (ihs hb)

lemma Wired.hang (h : Wired m n j0 F S Ls) {b0 : ℕ} (hb0 : m ≤ b0 ∧ b0 < n) (htop : ∀ l ∈ Ls, S.o.bodyOf l.2.2 ≠ b0)
    {G : Forest (FrameRef × ℕ × FrameRef) ℕ} (hG : Unfolds S.o S.w b0 (S.w.body b0).children G) (hn : (b0 :: G.bodies).Nodup) (hnj : (joints G).Nodup)
    (hN : ∀ b, b ∈ b0 :: G.bodies ↔ m ≤ b ∧ b < n) (hL : G.links.Perm Ls) {f0 : FrameRef} (o0 : Old S f0) (h0 : S.o.bodyOf f0 = S.w.ground)
    (a : JAttr) (name : Option String) :
    ∃ S1 S2, Runs (newJoint a name) S S.nj S1 ∧ Runs (Build.link f0 S.nj (.body b0)) S1 () S2 ∧
      Good S2 (F.append (.cons (f0, S.nj, .body b0) b0 G .nil)) ∧ Keeps S S2 ∧ S2.jattr S.nj = a ∧ S2.jname S.nj = name ∧ S2.nb = S.nb ∧ S2.nj = S.nj + 1 := by
  obtain ⟨S1, r1, g1, k1, _, _, ja, jn, jd, b1, j1, s1, _, _⟩ := newJoint_runs h.good a name
  have eS : S1 = { S with nj := S.nj + 1, o := { S.o with ndof := Function.update S.o.ndof S.nj a.ndof }, jattr := Function.update S.jattr S.nj a, jname := Function.update S.jname S.nj name, w := { S.w with joint := Function.update S.w.joint S.nj {} } } := by
    have := r1; unfold Runs newJoint at this
    injection this with this
    injection this with _ this
    exact this.symm
  have wb : S1.w.body = S.w.body := by rw [eS]
  have wj : ∀ k, k ≠ S.nj → S1.w.joint k = S.w.joint k := by intro k hk; rw [eS]; exact Function.update_of_ne hk _ _
  have wn : S1.w.joint S.nj = {} := by rw [eS]; exact Function.update_self _ _ _
  have eo : ∀ f, S1.o.bodyOf f = S.o.bodyOf f := by intro f; rw [eS]; cases f <;> rfl
  have wg : S1.w.ground = S.w.ground := k1.ground
  have hp : (S1.w.body (S1.o.bodyOf (.body b0))).parent = none := by
    rw [wb]; exact h.parent_none _ hb0.1 hb0.2 htop
  obtain ⟨w', e, eg, ej, ef0, ef1, epar, ech, hkn, hk0, hk1, esh, _, _⟩ := addLink1_effect (f0 := f0) (j := S.nj) hp
  have r2 : Runs (Build.link f0 S.nj (.body b0)) S1 () { S1 with w := w' } := by
    have : addLink S1.o S1.w [.frame f0, .joint S.nj, .frame (.body b0)] = (w', .ok ()) := by
      unfold addLink
      simp only [wn, List.length_nil, Nat.zero_mod, and_self, if_true, e, gt_iff_lt, lt_irrefl, if_false]
    unfold Runs Build.link; rw [this]
  have hgr : S.w.ground < m := h.low _ List.mem_cons_self
  have ebo : S1.o.bodyOf (.body b0) = b0 := rfl
  have ebg : S1.o.bodyOf f0 = S.w.ground := by rw [eo, h0]
  have same : ∀ b, b ≠ b0 → b ≠ S.w.ground → w'.body b = S.w.body b := by
    intro b q1 q2
    rw [← wb]
    apply bodyObj_ext
    · rw [epar, if_neg (by rw [ebo]; exact q1)]
    · rw [ech, if_neg (by rw [ebg]; exact q2)]
  have k2 : Keeps S1 { S1 with w := w' } := keeps_world eg (fun f hf => hkn (.sub f) hf) (fun s hs => by rw [esh]; exact hs)
  have hGl : ∀ l ∈ G.links, l ∈ Ls := fun l hl => hL.mem_iff.mp hl
  have hnbF : ∀ b ∈ F.bodies, b < m := fun b hb => h.low b (List.mem_cons_of_mem _ hb)
  have hnbG : ∀ b ∈ G.bodies, m ≤ b ∧ b < n := fun b hb => (hN b).mp (List.mem_cons_of_mem _ hb)
  have hFn := h.good.tree.bodies_nodup
  have hGj : ∀ j ∈ joints G, j0 ≤ j ∧ j < S.nj := by
    intro j hj
    obtain ⟨l, hl, rfl⟩ := List.mem_map.mp hj
    have : l.2.1 ∈ Ls.map (fun l => l.2.1) := List.mem_map_of_mem (f := fun l : FrameRef × ℕ × FrameRef => l.2.1) (hGl l hl)
    rw [h.nums, List.mem_range'_1] at this
    rw [h.nj]; omega
  have hj0 : j0 ≤ S.nj := by rw [h.nj]; omega
  have bod : (F.append (.cons (f0, S.nj, .body b0) b0 G .nil)).bodies = F.bodies ++ b0 :: G.bodies := by
    rw [Forest.bodies_append]; simp [Forest.bodies]
  have lin : (F.append (.cons (f0, S.nj, .body b0) b0 G .nil)).links = F.links ++ (f0, S.nj, .body b0) :: G.links := by
    rw [Forest.links_append]; simp [Forest.links]
  have joi : joints (F.append (.cons (f0, S.nj, .body b0) b0 G .nil)) = joints F ++ S.nj :: joints G := by
    rw [joints, lin]; simp [joints]
  refine ⟨S1, { S1 with w := w' }, r1, r2, ⟨?_, ?_, ?_, ?_, ?_, ?_⟩, k1.trans k2, ja, jn, b1, j1⟩
  · refine ⟨?_, ?_, ?_, ?_⟩
    · change Unfolds S1.o w' w'.ground (w'.body w'.ground).children _
      rw [eg, wg, ech, if_pos ebg.symm, wb]
      have uF : Unfolds S1.o w' S.w.ground (S.w.body S.w.ground).children F := by
        refine h.good.tree.unfolds.congr ?_ ?_ (fun l _ => ⟨eo _, eo _⟩)
        · intro c hc
          have := hnbF c hc
          refine same c (by omega) ?_
          rintro rfl
          exact (List.nodup_cons.mp hFn).1 hc
        · intro k hk
          have := h.lowj k hk
          rw [ej k (by omega), wj k (by omega)]
      have uG : Unfolds S1.o w' b0 (w'.body b0).children G := by
        have ec : (w'.body b0).children = (S.w.body b0).children := by
          rw [ech, if_neg (by rw [ebg]; omega), wb]
        rw [ec]
        refine hG.congr ?_ ?_ (fun l _ => ⟨eo _, eo _⟩)
        · intro c hc
          have := hnbG c hc
          refine same c ?_ (by omega)
          rintro rfl
          exact (List.nodup_cons.mp hn).1 hc
        · intro k hk
          have := hGj k hk
          rw [ej k (by omega), wj k (by omega)]
      have hpar : (w'.body b0).parent = some S.nj := by rw [epar, if_pos ebo.symm]
      exact Unfolds.snocTree (f1 := .body b0) uF ef0 ef1 ebg hpar uG
    · change (w'.body w'.ground).parent = none
      rw [eg, wg, epar, if_neg (by rw [ebo]; omega), wb]
      exact h.good.tree.root
    · change (w'.ground :: _).Nodup
      rw [eg, wg, bod, ← List.cons_append, List.nodup_append]
      refine ⟨hFn, hn, ?_⟩
      rintro x hx y hy rfl
      have := h.low x hx
      have := (hN x).mp hy
      omega
    · rw [joi, List.nodup_append]
      refine ⟨h.good.tree.joints_nodup, List.nodup_cons.mpr ⟨fun hm => by have := hGj _ hm; omega, hnj⟩, ?_⟩
      rintro x hx y hy rfl
      have := h.lowj x hx
      rcases List.mem_cons.mp hy with rfl | hy
      · omega
      · have := hGj x hy; omega
  · change w'.ground < S1.nb
    rw [eg]; exact g1.ground
  · intro b hb
    rw [bod, List.mem_append] at hb
    change b < S1.nb
    rw [b1]
    rcases hb with hb | hb
    · exact h.good.bodies b hb
    · have := (hN b).mp hb; rw [h.nb]; omega
  · intro l hl
    rw [lin, List.mem_append, List.mem_cons] at hl
    apply good_old
    rcases hl with hl | rfl | hl
    · exact g1.frames l hl
    · refine ⟨k1.old o0, ?_⟩
      change b0 < S1.nb; rw [b1, h.nb]; exact hb0.2
    · have := h.old l (hGl l hl); exact ⟨k1.old this.1, k1.old this.2⟩
  · intro j hj
    change j < S1.nj
    rw [joi, List.mem_append, List.mem_cons] at hj
    rw [j1]
    rcases hj with hj | rfl | hj
    · have := h.good.joints j hj; omega
    · omega
    · have := hGj j hj; omega
  · intro j hj
    change S1.o.ndof j = (S1.jattr j).ndof
    rw [joi, List.mem_append, List.mem_cons] at hj
    rcases hj with hj | rfl | hj
    · exact g1.ndof j hj
    · rw [ja, jd]
    · obtain ⟨l, hl, rfl⟩ := List.mem_map.mp hj
      obtain ⟨q1, _, q2⟩ := k1.joint l.2.1 (h.lt_nj (hGl l hl))
      rw [q1, q2]; exact h.ndof l (hGl l hl)

end

end Arboris
