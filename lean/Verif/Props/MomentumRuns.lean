import Verif.Props.MomentumRun
import Verif.Props.PDRun
import Verif.Props.DropRest
import Verif.Props.Resume

/-!
# C123: such simulations run to their end; a ball that hits a plate
-/

namespace Arboris
open Matrix Spec Mech Build Sim

variable {n : ℕ}

/-- the velocity of a sliding joint is read from the velocity of its body -/
lemma slide_inj {l : MLink} (hl : Sliding l) (q : Fin l.link.k → ℝ) (h : l.link.joint.jac *ᵥ q = 0) : q = 0 := by
  obtain ⟨att, start, b0, b1⟩ := l
  cases att with
  | fixed => funext i; exact i.elim0
  | free H T => exact hl.elim
  | lin k g dg =>
    have e1 : ∀ (a b c d e f : ℝ) (q : Fin 1 → ℝ), (!![a; b; c; d; e; f] : Matrix (Fin 6) (Fin 1) ℝ) *ᵥ q = 0 → (d ≠ 0 ∨ e ≠ 0 ∨ f ≠ 0) → q = 0 := by
      intro a b c d e f q h hne
      funext i
      obtain rfl : i = 0 := Subsingleton.elim _ _
      have h3 := congrFun h 3
      have h4 := congrFun h 4
      have h5 := congrFun h 5
      simp [Matrix.mulVec, dotProduct] at h3 h4 h5
      rcases hne with h0 | h0 | h0
      · exact h3.resolve_left h0
      · exact h4.resolve_left h0
      · exact h5.resolve_left h0
    have e3 : ∀ q : Fin 3 → ℝ, (!![0, 0, 0; 0, 0, 0; 0, 0, 0; 1, 0, 0; 0, 1, 0; 0, 0, 1] : Matrix (Fin 6) (Fin 3) ℝ) *ᵥ q = 0 → q = 0 := by
      intro q h
      have := congrArg lin h
      rwa [col63, lin_tw] at this
    rcases hl with rfl | rfl | rfl | rfl
    · exact e1 _ _ _ _ _ _ q h (by simp)
    · exact e1 _ _ _ _ _ _ q h (by simp)
    · exact e1 _ _ _ _ _ _ q h (by simp)
    · exact e3 q h

lemma still_inj {ν : Fin n → ℝ} (F : Forest MLink Body) : (∀ l ∈ F.links, Sliding l ∧ RigidLink l) → ∀ {d : BodyDyn n}, Still d → d.jac *ᵥ ν = 0 →
    (∀ x ∈ updateDynamic d (F.map MLink.link id), x.2.jac *ᵥ ν = 0) → ∀ l ∈ F.links, selMat n l.link.start l.link.k *ᵥ ν = 0 := by
  induction F with
  | nil => intro _ d _ _ _ l hl; simp [Forest.links] at hl
  | cons l b ch sib ihc ihs =>
    intro hl d hd h0 hx y hy
    have hl0 := hl l (by simp [Forest.links])
    have hs := slider_of hl0.1 hl0.2
    simp only [Forest.map, updateDynamic] at hx
    have hz := hx _ (List.mem_cons_self ..)
    simp only [Forest.links, List.mem_cons, List.cons_append, List.mem_append] at hy
    rcases hy with rfl | hy | hy
    · apply slide_inj hl0.1
      have h1 := congrArg lin hz
      have e0 : lin (0 : Vec6) = 0 := rfl
      rw [step_jac hd hs, lin_tw, h0, e0, Matrix.mulVec_zero, zero_add] at h1
      have h2 := congrArg (fun a => (rot y.link.bpose1)ᵀ *ᵥ a) h1
      simp only [Matrix.mulVec_mulVec, hs.bpose1.rotation.2.1, Matrix.mulVec_zero] at h2
      rw [Matrix.one_mulVec] at h2
      rw [tw_of_ang (hs.jac _), Matrix.mulVec_mulVec, h2, tw_zero]
    · exact ihc (fun y hy => hl y (by simp [Forest.links, hy])) (still_step hd hs) hz (fun x hx' => hx x (by simp [hx'])) y hy
    · exact ihs (fun y hy => hl y (by simp [Forest.links, hy])) hd h0 (fun x hx' => hx x (by simp [hx'])) y hy

lemma mass_quad {M : Mat6} {m : ℝ} {c : Vec3} {I : Mat3} (h : IsRigidMass M m c I) {T : Vec6} (hT : ang T = 0) : T ⬝ᵥ M *ᵥ T = m * (lin T ⬝ᵥ lin T) := by
  rw [tw_of_ang hT, mass_dot h, lin_tw]

lemma list_sum_zero {α : Type} (f : α → ℝ) : ∀ (l : List α), (∀ x ∈ l, 0 ≤ f x) → (l.map f).sum = 0 → ∀ x ∈ l, f x = 0
  | [], _, _ => by simp
  | a :: l, h, h0 => by
    have h1 := h a (by simp)
    have h2 : 0 ≤ (l.map f).sum := List.sum_nonneg fun y hy => by
      obtain ⟨x, hx, rfl⟩ := List.mem_map.mp hy
      exact h x (by simp [hx])
    simp only [List.map_cons, List.sum_cons] at h0
    intro x hx
    rcases List.mem_cons.mp hx with rfl | hx
    · linarith
    · exact list_sum_zero f l (fun y hy => h y (by simp [hy])) (by linarith) x hx

/-- the world's mass matrix is invertible: bodies with mass, joints which slide -/
lemma loose_mass {w : MWorld n Unit} {m : Body → ℝ} {c : Body → Vec3} (hn : ndof w.tree = n) (hnum : Numbered 0 w.tree.links)
    (hl : ∀ l ∈ w.tree.links, Sliding l ∧ RigidLink l) (hb : ∀ b ∈ w.tree.bodies, (∃ I, IsRigidMass b.mass (m b) (c b) I) ∧ 0 < m b) :
    (worldMass (worldDynamic n (linksOf w))).det ≠ 0 := by
  set bs := worldDynamic n (linksOf w) with hbs
  have hst : ∀ x ∈ bs, Still x.2 := by
    have : ∀ (F : Forest MLink Body), (∀ l ∈ F.links, Sliding l ∧ RigidLink l) → ∀ {d : BodyDyn n}, Still d → ∀ x ∈ updateDynamic d (F.map MLink.link id), Still x.2 := by
      intro F
      induction F with
      | nil => intro _ d _ x hx; simp [Forest.map, updateDynamic] at hx
      | cons l b ch sib ihc ihs =>
        intro hl d hd x hx
        have hl0 := hl l (by simp [Forest.links])
        have hs := still_step hd (slider_of hl0.1 hl0.2)
        simp only [Forest.map, updateDynamic] at hx
        rcases List.mem_cons.mp hx with rfl | hx
        · exact hs
        rcases List.mem_append.mp hx with hx | hx
        · exact ihc (fun y hy => hl y (by simp [Forest.links, hy])) hs x hx
        · exact ihs (fun y hy => hl y (by simp [Forest.links, hy])) hd x hx
    exact this w.tree hl (still_ground n)
  intro h0
  obtain ⟨ν, hν, hM⟩ := Matrix.exists_mulVec_eq_zero_iff.mpr h0
  apply hν
  have hq : ν ⬝ᵥ worldMass bs *ᵥ ν = 0 := by rw [hM, dotProduct_zero]
  rw [worldMass_eq, dot_sum_mulVec, List.map_map] at hq
  have hval : ∀ x ∈ bs, ((fun A => ν ⬝ᵥ A *ᵥ ν) ∘ fun x : Body × BodyDyn n => x.2.jacᵀ * x.1.mass * x.2.jac) x = m x.1 * (lin (x.2.jac *ᵥ ν) ⬝ᵥ lin (x.2.jac *ᵥ ν)) := by
    intro x hx
    obtain ⟨⟨I, hI⟩, -⟩ := hb _ (mem_dyn hx)
    simp only [Function.comp_apply]
    rw [dot_JtMJ, mass_quad hI ((hst x hx).jac ν)]
  have hjac : ∀ x ∈ bs, x.2.jac *ᵥ ν = 0 := by
    intro x hx
    have hsq : ∀ a : Vec3, 0 ≤ a ⬝ᵥ a := fun a => Finset.sum_nonneg fun i _ => mul_self_nonneg _
    have h1 := list_sum_zero _ bs (fun y hy => by
      rw [hval y hy]
      exact mul_nonneg (hb _ (mem_dyn hy)).2.le (hsq _)) hq x hx
    rw [hval x hx] at h1
    have h2 := (mul_eq_zero.mp h1).resolve_left (hb _ (mem_dyn hx)).2.ne'
    have h3 : lin (x.2.jac *ᵥ ν) = 0 := dotProduct_self_eq_zero.mp h2
    rw [tw_of_ang ((hst x hx).jac ν), h3, tw_zero]
  have hz := still_inj w.tree hl (still_ground n) (by change (0 : Matrix (Fin 6) (Fin n) ℝ) *ᵥ ν = 0; rw [Matrix.zero_mulVec]) hjac
  funext d
  obtain ⟨l, hl', h1, h2⟩ := numbered_cover hnum (Nat.zero_le d.val) (by
    have hs : ndof w.tree = (w.tree.links.map fun l => l.att.ndof).sum := rfl
    have := d.isLt
    omega)
  have h3 := hz l hl'
  have hbound : l.start + l.att.ndof ≤ n := by
    have := hnum.bounds hl'
    have hs : ndof w.tree = (w.tree.links.map fun l => l.att.ndof).sum := rfl
    omega
  have h3 := h3
  rw [selMat_mulVec _ _ _ (show l.link.start + l.link.k ≤ n from hbound)] at h3
  have h4 := congrFun h3 ⟨d.val - l.start, (by change d.val - l.start < l.att.ndof; omega)⟩
  simp only [Pi.zero_apply] at h4 ⊢
  rw [← h4]
  congr 1
  apply Fin.ext
  change d.val = l.start + (d.val - l.start)
  omega

/-- what holds at each moment of the run -/
structure Going (m : Body → ℝ) (c : Body → Vec3) (w : MWorld n Unit) : Prop where
  dofs : ndof w.tree = n
  num : Numbered 0 w.tree.links
  links : ∀ l ∈ w.tree.links, Sliding l ∧ RigidLink l
  bodies : ∀ b ∈ w.tree.bodies, (∃ I, IsRigidMass b.mass (m b) (c b) I) ∧ 0 < m b ∧ b.viscosity = 0
  vel : ∀ l ∈ w.tree.links, HasVel w.gvel l

lemma going_still {m : Body → ℝ} {c : Body → Vec3} {w : MWorld n Unit} (hw : Going m c w) : ∀ x ∈ worldDynamic n (linksOf w), Still x.2 := by
  have hslid := dyn_slid (advance_rel hw.vel 0 0) hw.links (still_ground n) (still_ground n) (slid_ground 0 0)
  intro x hx
  obtain ⟨y, -, hy⟩ := forall₂_left hslid x hx
  exact hy.2.1

lemma ndof_rel {R : MLink → MLink → Prop} (hR : ∀ l l', R l l' → l'.att.ndof = l.att.ndof) {F G : Forest MLink Body} (h : ForestRel R F G) : ndof G = ndof F := by
  have : ∀ {ls ls' : List MLink}, List.Forall₂ R ls ls' → (ls'.map fun l => l.att.ndof) = ls.map fun l => l.att.ndof := by
    intro ls ls' hh
    induction hh with
    | nil => rfl
    | cons h1 _ ih => simp only [List.map_cons, ih, hR _ _ h1]
  change (G.links.map fun l => l.att.ndof).sum = (F.links.map fun l => l.att.ndof).sum
  rw [this h.links.1]

lemma going_started {m : Body → ℝ} {c : Body → Vec3} {w w0 : MWorld n Unit} (hdofs : ndof w.tree = n) (hlinks : ∀ l ∈ w.tree.links, Sliding l ∧ RigidLink l)
    (hbodies : ∀ b ∈ w.tree.bodies, (∃ I, IsRigidMass b.mass (m b) (c b) I) ∧ 0 < m b ∧ b.viscosity = 0) (h : Started w w0) : Going m c w0 := by
  refine ⟨?_, h.numbered, ?_, ?_, h.vel⟩
  · rw [ndof_rel (fun l l' e => by rw [e]) h.tree, hdofs]
  · intro l hl
    obtain ⟨l0, hl0, he⟩ := h.tree.mem hl
    obtain ⟨k1, k2⟩ := hlinks l0 hl0
    rw [he]
    exact ⟨k1, ⟨k2.bpose0, k2.bpose1, k2.free⟩⟩
  · rw [← h.tree.links.2]
    exact hbodies

/-- When the bodies have mass, and their joints slide, the simulation runs to its end. -/
lemma sliding_runs {up : Vec3} {gs : List ℝ} {m : Body → ℝ} {c : Body → Vec3} {P : Plug n Unit} (hP : P.ctrl = (libPlug n up (gs.map .weight)).ctrl)
    {w : MWorld n Unit} (hdofs : ndof w.tree = n) (hlinks : ∀ l ∈ w.tree.links, Sliding l ∧ RigidLink l)
    (hbodies : ∀ b ∈ w.tree.bodies, (∃ I, IsRigidMass b.mass (m b) (c b) I) ∧ 0 < m b ∧ b.viscosity = 0) {tl : List ℝ} (htl : tl ≠ []) (hp : tl.Pairwise (· < ·)) (k : ℕ) :
    ∃ tr w' t', simulate (engine P) w tl (.list k) = (tr, .ok (w', t')) := by
  cases tl with
  | nil => exact absurd rfl htl
  | cons t0 rest =>
    obtain ⟨w0, h0, hst0⟩ := init_started (w := w) hdofs
    have hr0 := going_started hdofs hlinks hbodies hst0
    have key : ∀ tr' e tr (w : MWorld n Unit), Going m c w → loop (engine P) k rest tr w t0 ≠ (tr', .error e) := by
      intro tr' e tr w hw hl
      refine (loop_error (E := engine P) (I := Going m c) (J := fun w => Going m c w ∧ Fresh w) (Q := fun e => False) ?_ ?_ ?_ ?_ k rest tr tr' w t0 e hp hw hl).1
      · intro w hw
        have hval : ∀ l ∈ (w.tree.map MLink.link id).links, ValidLink l := by
          intro l hl
          rw [links_map] at hl
          obtain ⟨l0, hl0, rfl⟩ := List.mem_map.mp hl
          exact (hw.links l0 hl0).2.valid
        have h1 := (C20_no_assertion n _ hval).2
        simp only [engine, dynamic, h1]
        exact ⟨_, rfl, ⟨hw.dofs, hw.num, hw.links, hw.bodies, hw.vel⟩, rfl, rfl, rfl, nl_slid (going_still hw)⟩
      · rintro w dt hdt ⟨hw, hf⟩
        left
        have hwt : ∀ γ, ∃ v, weightUpdateE γ up w.dyn = .ok v := by
          intro γ
          rw [hf.dyn]
          refine ⟨_, weightUpdateE_ok γ up _ (fun x hx => (going_still hw x hx).pose) ?_⟩
          intro x hx hneg
          obtain ⟨⟨I, hr⟩, h0, -⟩ := hw.bodies _ (mem_dyn hx)
          have := hneg 3 3
          simp only [hr.eq] at this
          have : m x.1 ≤ 0 := by simpa [blk] using this
          linarith
        obtain ⟨vals, hask, hval⟩ : ∃ vals, askAll up w dt (gs.map .weight) = .ok vals ∧ ∀ v ∈ vals, v.impedance = 0 := by
          clear hP
          induction gs with
          | nil => exact ⟨_, rfl, by simp⟩
          | cons γ l ih =>
            obtain ⟨v, hv⟩ := hwt γ
            obtain ⟨vs, hvs, hz⟩ := ih
            refine ⟨v :: vs, ?_, ?_⟩
            · simp only [List.map_cons]
              unfold askAll
              simp only [LibCtrl.update, hv, hvs]
            · have : v.impedance = 0 := by
                rw [weightUpdateE_ok γ up w.dyn] at hv
                · rw [← Except.ok.inj hv]
                · rw [hf.dyn]
                  exact fun x hx => (going_still hw x hx).pose
                · intro x hx hneg
                  rw [hf.dyn] at hx
                  obtain ⟨⟨I, hr⟩, h0, -⟩ := hw.bodies _ (mem_dyn hx)
                  have := hneg 3 3
                  simp only [hr.eq] at this
                  have : m x.1 ≤ 0 := by simpa [blk] using this
                  linarith
              intro y hy
              rcases List.mem_cons.mp hy with rfl | hy
              · exact this
              · exact hz y hy
        have hctrl : P.ctrl w dt = .ok ((), vals) := by
          rw [hP]
          simp only [libPlug, hask]
        have : ∃ o, updateControllers w.mass w.viscosity w.nleffects dt vals = .ok o := by
          have hV : w.viscosity = 0 := by
            rw [hf.viscosity, hf.dyn, worldViscosity_eq]
            refine List.sum_eq_zero fun A hA => ?_
            obtain ⟨x, hx, rfl⟩ := List.mem_map.mp hA
            rw [(hw.bodies _ (mem_dyn hx)).2.2, Matrix.mul_zero, Matrix.zero_mul]
          have hZ : (vals.map (·.impedance)).sum = 0 := List.sum_eq_zero fun A hA => by
            obtain ⟨v, hv, rfl⟩ := List.mem_map.mp hA
            exact hval v hv
          have hz : (dt⁻¹ • w.mass + w.viscosity + w.nleffects - (vals.map (·.impedance)).sum).det ≠ 0 := by
            rw [hV, hf.nleffects, hZ, add_zero, add_zero, sub_zero, Matrix.det_smul]
            refine mul_ne_zero (pow_ne_zero _ (inv_ne_zero hdt.ne')) ?_
            rw [hf.mass, hf.dyn]
            exact loose_mass hw.dofs hw.num hw.links fun b hb => ⟨(hw.bodies b hb).1, (hw.bodies b hb).2.1⟩
          exact ⟨⟨_, _, _⟩, (C33_sum _ _ _ _ _ _).mpr ⟨hdt, hz, rfl, rfl, Matrix.nonsing_inv_mul _ (isUnit_iff_ne_zero.mpr hz)⟩⟩
        obtain ⟨o, ho⟩ := this
        simp only [engine, controllers, hctrl, ho]
        exact ⟨_, rfl, ⟨hw.dofs, hw.num, hw.links, hw.bodies, hw.vel⟩, hf.dyn, hf.mass, hf.viscosity, hf.nleffects⟩
      · rintro w dt hdt ⟨hw, hf⟩
        simp only [engine, constraints, updateConstraints, if_pos hdt]
        exact ⟨_, rfl, ⟨hw.dofs, hw.num, hw.links, hw.bodies, hw.vel⟩, hf.dyn, hf.mass, hf.viscosity, hf.nleffects⟩
      · rintro w dt hdt ⟨hw, hf⟩
        simp only [engine, Mech.integrate, integrateGvel, if_pos hdt]
        refine ⟨_, rfl, ?_⟩
        have hr := advance_rel hw.vel (w.ctrl.admittance *ᵥ (w.mass *ᵥ (dt⁻¹ • w.gvel) + w.ctrl.gforce)) dt
        refine ⟨?_, numbered_slid hr.links.1 hw.num, ?_, ?_, ?_⟩
        · exact (ndof_rel (fun l l' e => ndof_moved e) hr).trans hw.dofs
        · intro l hl
          obtain ⟨l0, hl0, hm0⟩ := hr.mem hl
          exact ⟨(slid_of (hw.links l0 hl0).1 hm0).2, rigid_moved (hw.links l0 hl0).1 (hw.links l0 hl0).2 hm0⟩
        · have := hr.links.2
          intro b hb
          exact hw.bodies b (this ▸ hb)
        · intro l hl
          change l ∈ (w.tree.map (advance _ dt) id).links at hl
          rw [links_map] at hl
          obtain ⟨l', hl', rfl⟩ := List.mem_map.mp hl
          exact (moved_advance _ dt (hw.vel l' hl')).2
    have h0' : (engine P).init w = .ok w0 := h0
    simp only [simulate, h0', call]
    split
    · rename_i hl
      exact absurd hl (key _ _ _ _ hr0)
    · rename_i r _
      exact ⟨_, r.1, r.2, rfl⟩

/-- C123 (its hypotheses can be met).  When the bodies have mass the simulation runs to its end on any strictly increasing timeline: no matrix inverted
by `update_controllers` is singular.  (The exceptions of the constraints' own methods are not in this model of the engine: see C119 and C122.) -/
lemma momentum_runs {up : Vec3} {gs : List ℝ} {m : Body → ℝ} {c : Body → Vec3} {P : Plug n Unit} (hP : P.ctrl = (libPlug n up (gs.map .weight)).ctrl)
    {w : MWorld n Unit} (hw : LooseWorld m c w) (hpos : ∀ b ∈ w.tree.bodies, 0 < m b) {tl : List ℝ} (htl : tl ≠ []) (hp : tl.Pairwise (· < ·)) (k : ℕ) :
    ∃ tr w' t', simulate (engine P) w tl (.list k) = (tr, .ok (w', t')) :=
  sliding_runs hP hw.dofs hw.links (fun b hb => ⟨(hw.bodies b hb).1, hpos b hb, (hw.bodies b hb).2.2⟩) htl hp k

/-! ### A ball and a plate -/

/-- a contact between a plane carried by the body of rank `i` and a sphere carried by the body of rank `j` is between bodies of the world -/
lemma inner_touch {up : Vec3} {cs : List LibCtrl} {sort : Vec3 → Equiv.Perm (Fin 3)} (hs : ∀ z, IsArgsortAbs z (sort z)) {F0 F1 : Mat4} (hF0 : IsRigid F0) {nrm : Vec3}
    (hn : norm3 nrm = 1) {d r : ℝ} (hr : 0 ≤ r) {p : TouchParams} (hc : p.collide = planeSphereShapes sort F0 nrm d F1 r) {i j : ℕ} {w : MWorld n Unit}
    (hi : i < w.tree.bodies.length) (hj : j < w.tree.bodies.length) (hw : ∀ k ∈ w.cons, k.cls = softContact n p) : InnerCons (touchPlug n up cs p (some i) (some j)) w := by
  classical
  constructor
  · intro b k
    change (touchLook p (some i) (some j) b k).cls = k.cls
    unfold touchLook
    split
    · rename_i h
      exact h.symm
    · rfl
  · rintro b hb hsame hrig k ⟨k0, hk0, hk⟩
    have hcls : k.cls = softContact n p := hk.symm.trans (hw k0 hk0)
    obtain ⟨cls, st⟩ := k
    subst hcls
    change BetweenBodies b.dyn (touchLook p (some i) (some j) b ⟨softContact n p, st⟩)
    rw [touchLook_self b (show TouchState n from st)]
    have hlen : b.dyn.length = w.tree.bodies.length := by
      rw [hb, ← hsame]
      have := dyn_bodies (linksOf b) (groundDyn n)
      rw [linksOf, bodies_map] at this
      rw [← this, List.length_map]
      rfl
    have hat : ∀ k, (hk : k < b.dyn.length) → bodyAt b (some k) = (b.dyn[k]).2 := by
      intro k hk
      simp only [bodyAt, List.getElem?_eq_getElem hk]
    have hi' : i < b.dyn.length := by omega
    have hj' : j < b.dyn.length := by omega
    have r0 := hrig _ (List.getElem_mem hi')
    have r1 := hrig _ (List.getElem_mem hj')
    obtain ⟨R, hR, -, e⟩ := planeSphere_ok hs (r0.mul hF0) hn d (pdotBody (invBody ((b.dyn[i]).2.pose * F0)) (pos ((b.dyn[j]).2.pose * F1))) hr
    rw [toGround_invBody (r0.mul hF0)] at e
    obtain ⟨cc, ecc, rc0, rc1⟩ : ∃ cc, planeSphere sort (b.dyn[i].2.pose * F0) nrm d (pos (b.dyn[j].2.pose * F1)) r = .ok cc ∧ IsRigid cc.H0 ∧ IsRigid cc.H1 :=
      ⟨_, e, isRigid_mkH hR, isRigid_mkH hR⟩
    refine .contact (x := b.dyn[i]) (y := b.dyn[j]) (p := p) (c := cc) ?_ (List.getElem_mem hi') (List.getElem_mem hj') (hat i hi') (hat j hj')
    refine ⟨?_, ?_, ?_, ?_, ?_⟩
    rotate_left 2
    · change p.collide (bodyAt b (some i)).pose (bodyAt b (some j)).pose = _
      rw [hc, hat i hi', hat j hj']
      exact ecc
    · exact rc0
    · exact rc1
    · change IsRigid (bodyAt b (some i)).pose
      rw [hat i hi']
      exact r0
    · change IsRigid (bodyAt b (some j)).pose
      rw [hat j hj']
      exact r1

/-- a plate of mass 2 and, one metre and a half above it, a ball of mass 1 and radius 1 that falls at one metre per second; a contact between them -/
noncomputable def plateWorld (sort : Vec3 → Equiv.Perm (Fin 3)) : MWorld 6 Unit where
  tree := .cons ⟨.lin .TxTyTz (fun _ => 0) (fun _ => 0), 0, 1, 1⟩ ⟨(2 : ℝ) • 1, 0⟩ .nil
    (.cons ⟨.lin .TxTyTz (fun i => ![0, 0, 2.5] i) (fun i => ![0, 0, -1] i), 0, 1, 1⟩ ⟨1, 0⟩ .nil .nil)
  gvel := 0
  dyn := []
  mass := 0
  viscosity := 0
  nleffects := 0
  ctrl := ⟨0, 0, 0⟩
  mem := ()
  cons := [⟨softContact 6 (unitTouch sort), ⟨true, groundDyn 6, groundDyn 6, 1, 1, 0, false, 0⟩⟩]

lemma root_dyn (q dq : Fin 3 → ℝ) (s : ℕ) : rot (dynStep (groundDyn n) (MLink.link ⟨.lin .TxTyTz q dq, s, 1, 1⟩)).pose = 1 ∧
    (dynStep (groundDyn n) (MLink.link ⟨.lin .TxTyTz q dq, s, 1, 1⟩)).twist = tw 0 dq := by
  have hl : Sliding ⟨.lin .TxTyTz q dq, s, 1, 1⟩ := by simp [Sliding]
  have hs := slider_of hl ⟨isRigid_one, isRigid_one, fun H T h => by cases h⟩
  have e3 : rot (1 : Mat4) = 1 := by
    ext i j
    fin_cases i <;> fin_cases j <;> simp [rot, Matrix.one_apply]
  constructor
  · rw [dynStep_pose, relPose_slider hs]
    change rot ((1 : Mat4) * mkH (rot 1 * (rot 1)ᵀ) _) = 1
    rw [Matrix.one_mul, rot_mkH, e3, Matrix.transpose_one, Matrix.one_mul]
  · rw [dynStep_twist]
    have e1 : (groundDyn n).twist = 0 := rfl
    rw [e1, Matrix.mulVec_zero, zero_add]
    change adjointBody 1 *ᵥ (!![0, 0, 0; 0, 0, 0; 0, 0, 0; 1, 0, 0; 0, 1, 0; 0, 0, 1] *ᵥ dq) = _
    rw [adjointBody_one, Matrix.one_mulVec, col63]

/-- C123 (its hypotheses can be met): a ball falls on a plate which floats, and the momentum of the two stays that of the ball. -/
theorem C123_example (up : Vec3) {tl : List ℝ} (htl : tl ≠ []) (hp : tl.Pairwise (· < ·)) (k : ℕ) : ∃ sort, (∀ z, IsArgsortAbs z (sort z)) ∧
    ∃ (m : Body → ℝ) (c : Body → Vec3), LooseWorld m c (plateWorld sort) ∧ InnerCons (touchPlug 6 up [] (unitTouch sort) (some 0) (some 1)) (plateWorld sort) ∧
      ∃ tr w' t', simulate (engine (touchPlug 6 up [] (unitTouch sort) (some 0) (some 1))) (plateWorld sort) tl (.list k) = (tr, .ok (w', t')) ∧
        momentum m c w' = ![0, 0, -1] := by
  obtain ⟨sort, hs⟩ := C48_sort_exists
  have hm : LooseWorld (fun b => b.mass 3 3) (fun _ => 0) (plateWorld sort) := by
    refine ⟨by simp [ndof, plateWorld, Forest.links, JAttr.ndof, LinKind.ndof], ?_, ?_, ?_⟩
    · intro l hl
      change l ∈ [_, _] at hl
      simp only [List.mem_cons, List.not_mem_nil, or_false] at hl
      rcases hl with rfl | rfl
      · exact ⟨by simp [Sliding], isRigid_one, isRigid_one, fun H T h => by cases h⟩
      · exact ⟨by simp [Sliding], isRigid_one, isRigid_one, fun H T h => by cases h⟩
    · intro l hl
      simp only [plateWorld, roots, List.mem_cons, List.not_mem_nil, or_false] at hl
      rcases hl with rfl | rfl
      · exact ⟨_, _, rfl⟩
      · exact ⟨_, _, rfl⟩
    · intro b hb
      change b ∈ [_, _] at hb
      simp only [List.mem_cons, List.not_mem_nil, or_false] at hb
      have key : ∀ r : ℝ, 0 ≤ r → (∃ I, IsRigidMass (r • (1 : Mat6)) ((r • (1 : Mat6)) 3 3) 0 I) ∧ 0 ≤ (r • (1 : Mat6)) 3 3 := by
        intro r hr
        have e : (r • (1 : Mat6)) 3 3 = r := by simp
        rw [e]
        refine ⟨⟨r • 1, by simp, ?_⟩, hr⟩
        rw [skew_zero]
        ext i j
        fin_cases i <;> fin_cases j <;> simp [blk]
      rcases hb with rfl | rfl
      · exact ⟨(key 2 (by norm_num)).1, (key 2 (by norm_num)).2, rfl⟩
      · have := key 1 zero_le_one
        rw [one_smul] at this
        exact ⟨this.1, this.2, rfl⟩
  have hi : InnerCons (touchPlug 6 up [] (unitTouch sort) (some 0) (some 1)) (plateWorld sort) :=
    inner_touch hs isRigid_one (by simp [norm3]) zero_le_one rfl (by simp [plateWorld, Forest.bodies]) (by simp [plateWorld, Forest.bodies]) (by simp [plateWorld])
  obtain ⟨tr, w', t', hrun⟩ := momentum_runs (P := touchPlug 6 up [] (unitTouch sort) (some 0) (some 1)) (up := up) (gs := []) rfl hm (by
    simp [plateWorld, Forest.bodies, Matrix.smul_apply]) htl hp k
  refine ⟨sort, hs, _, _, hm, hi, tr, w', t', hrun, ?_⟩
  obtain ⟨t0, w0, seen, -, -, h0, -, -, he⟩ := C123_run (P := touchPlug 6 up [] (unitTouch sort) (some 0) (some 1)) (up := up) (gs := []) rfl hm hi hrun
  rw [he]
  obtain rfl := Except.ok.inj h0
  simp only [List.sum_nil, mul_zero, zero_mul, zero_smul, add_zero]
  unfold momentum
  change (List.map _ [(_, dynStep (groundDyn 6) (MLink.link ⟨.lin .TxTyTz _ _, 0, 1, 1⟩)), (_, dynStep (groundDyn 6) (MLink.link ⟨.lin .TxTyTz _ _, 3, 1, 1⟩))]).sum = _
  simp only [List.map_cons, List.map_nil, List.sum_cons, List.sum_nil, add_zero]
  have e : ∀ (q dq : Fin 3 → ℝ) (s : ℕ) (r : ℝ), r • (rot (dynStep (groundDyn 6) (MLink.link ⟨.lin .TxTyTz q dq, s, 1, 1⟩)).pose *ᵥ
      (lin (dynStep (groundDyn 6) (MLink.link ⟨.lin .TxTyTz q dq, s, 1, 1⟩)).twist + ang (dynStep (groundDyn 6) (MLink.link ⟨.lin .TxTyTz q dq, s, 1, 1⟩)).twist ⨯₃ (0 : Vec3))) = r • dq := by
    intro q dq s r
    rw [(root_dyn _ _ _).1, (root_dyn _ _ _).2, lin_tw, ang_tw, map_zero, add_zero, Matrix.one_mulVec]
  have f : ∀ a b : ℝ, a = 2 → b = 1 → (a • (fun _ => 0 : Fin 3 → ℝ)) + b • (fun i => ![0, 0, -1] i : Fin 3 → ℝ) = ![0, 0, -1] := by
    rintro a b rfl rfl
    funext i
    fin_cases i <;> simp
  exact (congrArg₂ (· + ·) (e _ _ _ _) (e _ _ _ _)).trans (f _ _ (by simp) (by simp))

end Arboris
