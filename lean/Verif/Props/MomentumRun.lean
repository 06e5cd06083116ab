import Verif.Props.Momentum

/-!
# C123 for a simulation: bodies which translate
-/

namespace Arboris
open Matrix Spec Mech Build Sim

variable {n : ℕ}

/-- linear momentum: sum of the masses times the velocities of the centres of mass, in the axes of the ground -/
noncomputable def Spec.momentum {σ : Type} (m : Body → ℝ) (c : Body → Vec3) (w : MWorld n σ) : Vec3 :=
  ((worldDynamic n (linksOf w)).map fun x => m x.1 • (rot x.2.pose *ᵥ (lin x.2.twist + ang x.2.twist ⨯₃ c x.1))).sum

/-- the joints to the ground -/
def Spec.roots : Forest MLink Body → List MLink
  | .nil => []
  | .cons l _ _ sib => l :: roots sib

/-- a world of bodies which translate, without viscosity, joined to the ground by `TxTyTzJoint`s only -/
structure Spec.LooseWorld (m : Body → ℝ) (c : Body → Vec3) (w : MWorld n Unit) : Prop where
  dofs : ndof w.tree = n
  links : ∀ l ∈ w.tree.links, Sliding l ∧ RigidLink l
  roots : ∀ l ∈ roots w.tree, ∃ q dq, l.att = .lin .TxTyTz q dq
  bodies : ∀ b ∈ w.tree.bodies, (∃ I, IsRigidMass b.mass (m b) (c b) I) ∧ 0 ≤ m b ∧ b.viscosity = 0

/-- the constraints registered in `w` are between bodies of the world, whatever its state -/
structure Spec.InnerCons (P : Plug n Unit) (w : MWorld n Unit) : Prop where
  cls : ∀ b k, (P.look b k).cls = k.cls
  between : ∀ b : MWorld n Unit, b.dyn = worldDynamic n (linksOf b) → b.tree.bodies = w.tree.bodies → (∀ x ∈ b.dyn, IsRigid x.2.pose) →
    ∀ k, (∃ k0 ∈ w.cons, k0.cls = k.cls) → BetweenBodies b.dyn (P.look b k)

/-! ### A motion of the whole exists -/

/-- values for the dofs of a list of links -/
lemma pick_vel : ∀ (ls : List (MLink × (ℕ → ℝ))) (a : ℕ), Numbered a (ls.map (·.1)) →
    ∃ f : ℕ → ℝ, ∀ p ∈ ls, ∀ i < p.1.att.ndof, f (p.1.start + i) = p.2 i
  | [], _, _ => ⟨0, by simp⟩
  | (l, g) :: ls, a, h => by
    have h1 : l.start = a := h.1
    have h2 : Numbered (a + l.att.ndof) (ls.map (·.1)) := h.2
    obtain ⟨f, hf⟩ := pick_vel ls _ h2
    refine ⟨fun d => if d < a + l.att.ndof then g (d - a) else f d, ?_⟩
    intro p hp i hi
    rcases List.mem_cons.mp hp with rfl | hp
    · simp only at hi ⊢
      rw [if_pos (by omega), h1]
      congr 1
      omega
    · have := h2.bounds (List.mem_map.mpr ⟨p, hp, rfl⟩)
      simp only
      rw [if_neg (by omega)]
      exact hf p hp i hi

/-- the links of a forest, the joints to the ground with the velocities `g` and the others at rest -/
def rootVals (g : MLink → ℕ → ℝ) : Forest MLink Body → List (MLink × (ℕ → ℝ))
  | .nil => []
  | .cons l _ ch sib => (l, g l) :: (ch.links.map fun x => (x, fun _ => 0)) ++ rootVals g sib

lemma rootVals_links (g : MLink → ℕ → ℝ) (F : Forest MLink Body) : (rootVals g F).map (·.1) = F.links := by
  induction F with
  | nil => rfl
  | cons l b ch sib _ ih =>
    simp only [rootVals, Forest.links, List.map_cons, List.map_append, List.map_map, ih, List.cons_append]
    congr 2
    conv_rhs => rw [← List.map_id ch.links]
    rfl

lemma sel_apply (f : ℕ → ℝ) (start k : ℕ) (h : start + k ≤ n) : selMat n start k *ᵥ (fun d : Fin n => f d.val) = fun i : Fin k => f (start + i.val) := by
  rw [selMat_mulVec _ _ _ h]
  rfl

lemma carried_child {u : Vec3} {ν : Fin n → ℝ} {d : BodyDyn n} {L : Link} (hd : Still d) (hL : Slider L) (hc : Carried 0 u ν d)
    (h0 : selMat n L.start L.k *ᵥ ν = 0) : Carried 0 u ν (dynStep d L) := by
  have hs := still_step hd hL
  refine ⟨by rw [hs.jac]; simp, ?_⟩
  have h1 := hc.2
  rw [step_jac hd hL, lin_tw, h0, Matrix.mulVec_zero]
  have e0 : lin (0 : Vec6) = 0 := rfl
  have hR := hL.bpose0.rotation.mul hL.bpose1.rotation.transpose
  rw [e0, Matrix.mulVec_zero, add_zero, dynStep_pose, hd.pose.eq_mkH, relPose_slider hL, mkH_mul, rot_mkH, Matrix.mulVec_mulVec, Matrix.mul_assoc, hR.1, Matrix.mul_one, h1]
  simp

lemma carried_root {u : Vec3} {ν : Fin n → ℝ} {L : Link} (hL : Slider L)
    (h0 : lin (L.joint.jac *ᵥ (selMat n L.start L.k *ᵥ ν)) = (rot L.bpose0)ᵀ *ᵥ u) : Carried 0 u ν (dynStep (groundDyn n) L) := by
  have hs := still_step (still_ground n) hL
  refine ⟨by rw [hs.jac]; simp, ?_⟩
  have e1 : (groundDyn n).jac *ᵥ ν = 0 := by
    change (0 : Matrix (Fin 6) (Fin n) ℝ) *ᵥ ν = 0
    rw [Matrix.zero_mulVec]
  have e0 : lin (0 : Vec6) = 0 := rfl
  rw [step_jac (still_ground n) hL, lin_tw, h0, e1, e0, Matrix.mulVec_zero, zero_add, dynStep_pose, (still_ground n).pose.eq_mkH, relPose_slider hL, mkH_mul, rot_mkH]
  have e3 : rot (groundDyn n).pose = 1 := by
    change rot (1 : Mat4) = 1
    ext i j
    fin_cases i <;> fin_cases j <;> simp [rot, Matrix.one_apply]
  rw [e3, Matrix.one_mul, Matrix.mulVec_mulVec, Matrix.mulVec_mulVec, Matrix.mul_assoc, Matrix.mul_assoc, ← Matrix.mul_assoc (rot L.bpose1)ᵀ, hL.bpose1.rotation.2.1, Matrix.one_mul,
    hL.bpose0.rotation.1, Matrix.one_mulVec]
  simp

lemma carried_below {u : Vec3} {f : ℕ → ℝ} (F : Forest MLink Body) : (∀ l ∈ F.links, Sliding l ∧ RigidLink l) → (∀ l ∈ F.links, l.start + l.att.ndof ≤ n) →
    (∀ l ∈ F.links, ∀ i < l.att.ndof, f (l.start + i) = 0) → ∀ {d : BodyDyn n}, Still d → Carried 0 u (fun x : Fin n => f x.val) d →
    ∀ x ∈ updateDynamic d (F.map MLink.link id), Carried 0 u (fun x : Fin n => f x.val) x.2 := by
  induction F with
  | nil => intro _ _ _ d _ _ x hx; simp [Forest.map, updateDynamic] at hx
  | cons l b ch sib ihc ihs =>
    intro hl hn h0 d hd hc x hx
    have hl0 := hl l (by simp [Forest.links])
    have hs := slider_of hl0.1 hl0.2
    have hc' : Carried 0 u (fun x : Fin n => f x.val) (dynStep d l.link) := by
      refine carried_child hd hs hc ?_
      rw [sel_apply f l.link.start l.link.k (hn l (by simp [Forest.links]))]
      funext i
      exact h0 l (by simp [Forest.links]) i.val i.isLt
    simp only [Forest.map, updateDynamic] at hx
    rcases List.mem_cons.mp hx with rfl | hx
    · exact hc'
    rcases List.mem_append.mp hx with hx | hx
    · exact ihc (fun y hy => hl y (by simp [Forest.links, hy])) (fun y hy => hn y (by simp [Forest.links, hy])) (fun y hy => h0 y (by simp [Forest.links, hy])) (still_step hd hs) hc' x hx
    · exact ihs (fun y hy => hl y (by simp [Forest.links, hy])) (fun y hy => hn y (by simp [Forest.links, hy])) (fun y hy => h0 y (by simp [Forest.links, hy])) hd hc x hx

/-- C123: in a world of translating bodies joined to the ground by `TxTyTzJoint`s, every velocity can be given to all bodies at once. -/
lemma carried_exists {w0 : MWorld n Unit} (hn : ndof w0.tree = n) (hl : ∀ l ∈ w0.tree.links, Sliding l ∧ RigidLink l)
    (hr : ∀ l ∈ roots w0.tree, ∃ q dq, l.att = .lin .TxTyTz q dq) (hnum : Numbered 0 w0.tree.links) (u : Vec3) :
    ∃ ν : Fin n → ℝ, ∀ x ∈ worldDynamic n (linksOf w0), Carried 0 u ν x.2 := by
  set g : MLink → ℕ → ℝ := fun l i => if h : i < 3 then ((rot l.bpose0)ᵀ *ᵥ u) ⟨i, h⟩ else 0 with hg
  obtain ⟨f, hf⟩ := pick_vel (rootVals g w0.tree) 0 (by rw [rootVals_links]; exact hnum)
  refine ⟨fun d => f d.val, ?_⟩
  have hb : ∀ l ∈ w0.tree.links, l.start + l.att.ndof ≤ n := by
    intro l hl
    have := hnum.bounds hl
    have hs : ndof w0.tree = (w0.tree.links.map fun l => l.att.ndof).sum := rfl
    omega
  have key : ∀ F : Forest MLink Body, (∀ l ∈ F.links, Sliding l ∧ RigidLink l) → (∀ l ∈ roots F, ∃ q dq, l.att = .lin .TxTyTz q dq) →
      (∀ l ∈ F.links, l.start + l.att.ndof ≤ n) → (∀ p ∈ rootVals g F, ∀ i < p.1.att.ndof, f (p.1.start + i) = p.2 i) →
      ∀ x ∈ updateDynamic (groundDyn n) (F.map MLink.link id), Carried 0 u (fun d : Fin n => f d.val) x.2 := by
    intro F
    induction F with
    | nil => intro _ _ _ _ x hx; simp [Forest.map, updateDynamic] at hx
    | cons l b ch sib _ ihs =>
      intro hl hr hn hf x hx
      have hl0 := hl l (by simp [Forest.links])
      have hs := slider_of hl0.1 hl0.2
      have hc : Carried 0 u (fun d : Fin n => f d.val) (dynStep (groundDyn n) l.link) := by
        refine carried_root hs ?_
        obtain ⟨q, dq, ha⟩ := hr l (by simp [roots])
        have h1 := hf (l, g l) (by simp [rootVals])
        have h2 := hn l (by simp [Forest.links])
        rw [sel_apply f l.link.start l.link.k h2]
        obtain ⟨att, start, b0, b1⟩ := l
        subst ha
        have e : ∀ v : Fin 3 → ℝ, lin ((!![0, 0, 0; 0, 0, 0; 0, 0, 0; 1, 0, 0; 0, 1, 0; 0, 0, 1] : Matrix (Fin 6) (Fin 3) ℝ) *ᵥ v) = v := by
          intro v
          rw [col63, lin_tw]
        refine (e fun i : Fin 3 => f (start + i.val)).trans ?_
        funext i
        have h3 := h1 i.val i.isLt
        simp only [hg] at h3
        rw [dif_pos i.isLt] at h3
        exact h3
      simp only [Forest.map, updateDynamic] at hx
      rcases List.mem_cons.mp hx with rfl | hx
      · exact hc
      rcases List.mem_append.mp hx with hx | hx
      · refine carried_below ch (fun y hy => hl y (by simp [Forest.links, hy])) (fun y hy => hn y (by simp [Forest.links, hy])) ?_ (still_step (still_ground n) hs) hc x hx
        intro y hy i hi
        exact hf (y, fun _ => 0) (by simp [rootVals, hy]) i hi
      · exact ihs (fun y hy => hl y (by simp [Forest.links, hy])) (fun y hy => hr y (by simp [roots, hy])) (fun y hy => hn y (by simp [Forest.links, hy]))
          (fun p hp => hf p (by simp [rootVals, hp])) x hx
  exact key w0.tree hl hr hb hf

/-! ### A step -/

lemma mass_dot {M : Mat6} {m : ℝ} {c : Vec3} {I : Mat3} (h : IsRigidMass M m c I) (a b : Vec3) : tw 0 a ⬝ᵥ M *ᵥ tw 0 b = m * (a ⬝ᵥ b) := by
  rw [h.eq, blk_mulVec, tw_dot]
  simp [Matrix.smul_mulVec]

lemma carried_tw {u : Vec3} {ν : Fin n → ℝ} {d : BodyDyn n} (hd : Still d) (hc : Carried 0 u ν d) : d.jac *ᵥ ν = tw 0 ((rot d.pose)ᵀ *ᵥ u) := by
  have h1 := hc.2
  rw [map_zero, LinearMap.zero_apply, add_zero] at h1
  rw [tw_of_ang (hd.jac ν), ← h1, Matrix.mulVec_mulVec, hd.pose.rotation.2.1, Matrix.one_mulVec]

lemma momentum_dot {m : ℝ} {c : Vec3} {M : Mat6} {I : Mat3} (h : IsRigidMass M m c I) {u : Vec3} {ν : Fin n → ℝ} {d : BodyDyn n} (hd : Still d)
    (hc : Carried 0 u ν d) {T : Vec6} (hT : ang T = 0) : (d.jac *ᵥ ν) ⬝ᵥ M *ᵥ T = u ⬝ᵥ (m • (rot d.pose *ᵥ (lin T + ang T ⨯₃ c))) := by
  rw [carried_tw hd hc, tw_of_ang hT, mass_dot h, ang_tw, lin_tw]
  simp only [map_zero, LinearMap.zero_apply, add_zero, dotProduct_smul, smul_eq_mul]
  rw [Matrix.dotProduct_mulVec, Matrix.mulVec_transpose]

lemma dot_list_sum (u : Vec3) (l : List Vec3) : u ⬝ᵥ l.sum = (l.map fun x => u ⬝ᵥ x).sum := by
  induction l with
  | nil => simp
  | cons a l ih => simp [dotProduct_add, ih]

lemma dot_list_sum' (u : Fin n → ℝ) (l : List (Fin n → ℝ)) : u ⬝ᵥ l.sum = (l.map fun x => u ⬝ᵥ x).sum := by
  induction l with
  | nil => simp
  | cons a l ih => simp [dotProduct_add, ih]

/-- the work of a `WeightController` on a translation of the whole -/
lemma weight_whole {γ : ℝ} {up : Vec3} {m : Body → ℝ} {c : Body → Vec3} {I : Body → Mat3} {u : Vec3} {ν : Fin n → ℝ} {bs : List (Body × BodyDyn n)}
    (hst : ∀ x ∈ bs, Still x.2) (hc : ∀ x ∈ bs, Carried 0 u ν x.2) (hM : ∀ x ∈ bs, IsRigidMass x.1.mass (m x.1) (c x.1) (I x.1)) (h0 : ∀ x ∈ bs, 0 ≤ m x.1)
    {out : CtrlVal n} (ho : weightUpdateE γ up bs = .ok out) :
    ν ⬝ᵥ out.gforce = γ * ((bs.map fun x => m x.1).sum * (u ⬝ᵥ up)) ∧ out.impedance = 0 := by
  have hz : ∀ x ∈ bs, (∀ i j, x.1.mass i j ≤ 0) → x.1.mass *ᵥ (iadjointBody x.2.pose *ᵥ gravityTwist γ up) = 0 := by
    intro x hx hneg
    have hr := hM x hx
    have hz : m x.1 = 0 := by
      refine le_antisymm ?_ (h0 x hx)
      have := hneg 3 3
      simp only [hr.eq] at this
      simpa [blk] using this
    unfold gravityTwist
    rw [iadj_zero, hr.eq, hz, blk_mulVec]
    simp [tw_zero]
  rw [weightUpdateE_ok γ up bs (fun x hx => (hst x hx).pose) hz] at ho
  obtain rfl := Except.ok.inj ho
  refine ⟨?_, rfl⟩
  dsimp only
  rw [dot_list_sum', List.map_map]
  have e : ∀ x ∈ bs, ((fun y => ν ⬝ᵥ y) ∘ fun x : Body × BodyDyn n => x.2.jacᵀ *ᵥ (x.1.mass *ᵥ (iadjointBody x.2.pose *ᵥ gravityTwist γ up))) x =
      m x.1 * (γ * (u ⬝ᵥ up)) := by
    intro x hx
    simp only [Function.comp_apply]
    rw [dot_transpose_mul, carried_tw (hst x hx) (hc x hx), gravityTwist, iadj_zero, mass_dot (hM x hx)]
    congr 1
    rw [Matrix.dotProduct_mulVec, Matrix.vecMul_transpose, Matrix.mulVec_mulVec, (hst x hx).pose.rotation.1, Matrix.one_mulVec, dotProduct_smul, smul_eq_mul]
  rw [List.map_congr_left e, List.sum_map_mul_right]
  ring

lemma weight_list {up : Vec3} {m : Body → ℝ} {c : Body → Vec3} {I : Body → Mat3} {u : Vec3} {ν : Fin n → ℝ} {bs : List (Body × BodyDyn n)}
    (hst : ∀ x ∈ bs, Still x.2) (hc : ∀ x ∈ bs, Carried 0 u ν x.2) (hM : ∀ x ∈ bs, IsRigidMass x.1.mass (m x.1) (c x.1) (I x.1)) (h0 : ∀ x ∈ bs, 0 ≤ m x.1)
    {gs : List ℝ} {vals : List (CtrlVal n)} (h : List.Forall₂ (fun γ v => weightUpdateE γ up bs = .ok v) gs vals) :
    ν ⬝ᵥ (vals.map (·.gforce)).sum = gs.sum * ((bs.map fun x => m x.1).sum * (u ⬝ᵥ up)) ∧ (vals.map (·.impedance)).sum = 0 := by
  induction h with
  | nil => simp
  | cons h1 _ ih =>
    obtain ⟨e1, e2⟩ := weight_whole hst hc hM h0 h1
    simp only [List.map_cons, List.sum_cons, dotProduct_add, e1, e2, ih.1, ih.2, zero_add, and_true]
    ring

/-- what does not change during the run -/
structure Loose (m : Body → ℝ) (c : Body → Vec3) (I : Body → Mat3) (P : Plug n Unit) (wi w : MWorld n Unit) : Prop where
  links : ∀ l ∈ w.tree.links, Sliding l ∧ RigidLink l
  bodies : ∀ b ∈ w.tree.bodies, IsRigidMass b.mass (m b) (c b) (I b) ∧ 0 ≤ m b ∧ b.viscosity = 0
  same : w.tree.bodies = wi.tree.bodies
  cons : ∀ k ∈ w.cons, ∃ k0 ∈ wi.cons, k0.cls = k.cls
  vel : ∀ l ∈ w.tree.links, HasVel w.gvel l

lemma loose_twist {w : MWorld n Unit} (h : ∀ l ∈ w.tree.links, HasVel w.gvel l) : ∀ x ∈ worldDynamic n (linksOf w), x.2.twist = x.2.jac *ᵥ w.gvel := by
  apply C21_twist
  intro l hl
  unfold linksOf at hl
  rw [links_map] at hl
  obtain ⟨l', hl', rfl⟩ := List.mem_map.mp hl
  exact (h l' hl').consistent

lemma dyn_total {w : MWorld n Unit} (m : Body → ℝ) : ((worldDynamic n (linksOf w)).map fun x => m x.1).sum = (w.tree.bodies.map m).sum := by
  have := dyn_bodies (linksOf w) (groundDyn n)
  rw [linksOf, bodies_map] at this
  rw [← this, List.map_map]
  rfl

private lemma rel_right {α β : Type} {R : α → β → Prop} {l : List α} {l' : List β} (h : List.Forall₂ R l l') : ∀ y ∈ l', ∃ x ∈ l, R x y := by
  induction h with
  | nil => simp
  | cons h1 _ ih =>
    intro y hy
    rcases List.mem_cons.mp hy with rfl | hy
    · exact ⟨_, List.mem_cons_self .., h1⟩
    · obtain ⟨x, hx, hr⟩ := ih y hy
      exact ⟨x, by simp [hx], hr⟩

lemma slid_map {dt : ℝ} {v : Fin n → ℝ} {bs bs' : List (Body × BodyDyn n)}
    (h : List.Forall₂ (fun x y : Body × BodyDyn n => x.1 = y.1 ∧ Still x.2 ∧ Still y.2 ∧ Slid dt v x.2 y.2) bs bs') {γ : Type} (f : Body → Matrix (Fin 6) (Fin n) ℝ → γ) :
    (bs'.map fun x => f x.1 x.2.jac) = bs.map fun x => f x.1 x.2.jac := by
  induction h with
  | nil => rfl
  | cons h1 _ ih => simp only [List.map_cons, ih, h1.2.2.2.jac, h1.1]

lemma momentum_step {up : Vec3} {gs : List ℝ} {m : Body → ℝ} {c : Body → Vec3} {I : Body → Mat3} {P : Plug n Unit} (hP : P.ctrl = (libPlug n up (gs.map .weight)).ctrl)
    {dt : ℝ} {wi w s w' : MWorld n Unit} (hi : InnerCons P wi) (hw : Loose m c I P wi w) (h : WStep P dt w s w') {u : Vec3} {ν : Fin n → ℝ}
    (hν : ∀ x ∈ worldDynamic n (linksOf w), Carried 0 u ν x.2) :
    Loose m c I P wi w' ∧ (∀ x ∈ worldDynamic n (linksOf w'), Carried 0 u ν x.2) ∧ momentum m c s = momentum m c w ∧
      u ⬝ᵥ momentum m c w' = u ⬝ᵥ momentum m c w + dt * (gs.sum * ((wi.tree.bodies.map m).sum * (u ⬝ᵥ up))) := by
  have hslid := dyn_slid h.tree hw.links (still_ground n) (still_ground n) (slid_ground dt w'.gvel)
  change List.Forall₂ _ (worldDynamic n (linksOf w)) (worldDynamic n (linksOf w')) at hslid
  have hst : ∀ x ∈ worldDynamic n (linksOf w), Still x.2 := fun x hx => by
    obtain ⟨y, -, hy⟩ := forall₂_left hslid x hx
    exact hy.2.1
  have hseen := h.motion
  obtain ⟨vals0, F0, hs0, -⟩ := hseen
  have hdyn := hs0.dyn
  have hlo : ∀ b : MWorld n Unit, b.tree = w.tree → linksOf b = linksOf w := by
    intro b hb
    unfold linksOf
    rw [hb]
  have hB : ∀ b : MWorld n Unit, b.tree = w.tree → b.dyn = s.dyn → ∀ k ∈ w.cons, BetweenBodies s.dyn (P.look b k) := by
    intro b h1 h2 k hk
    rw [← h2]
    refine hi.between b (by rw [h2, hdyn, hlo b h1]) (by rw [h1, hw.same]) ?_ k (hw.cons k hk)
    rw [h2, hdyn]
    exact fun x hx => (hst x hx).pose
  obtain ⟨vals, ⟨a, a1, a2, a3, a4⟩, hmom⟩ := C123_step h (ω := 0) (u := u) (ν := ν) (by rw [hdyn]; exact hν) hB
  rw [hdyn] at hmom a3
  have hmass : ∀ x ∈ worldDynamic n (linksOf w), IsRigidMass x.1.mass (m x.1) (c x.1) (I x.1) ∧ 0 ≤ m x.1 ∧ x.1.viscosity = 0 := fun x hx => hw.bodies _ (mem_dyn hx)
  -- the controllers
  have hctrl : ν ⬝ᵥ (vals.map (·.gforce)).sum = gs.sum * ((wi.tree.bodies.map m).sum * (u ⬝ᵥ up)) ∧ (vals.map (·.impedance)).sum = 0 := by
    rw [hP] at a4
    simp only [libPlug] at a4
    cases ha : askAll up a dt (gs.map LibCtrl.weight) with
    | error e => rw [ha] at a4; cases a4
    | ok vs =>
      rw [ha] at a4
      obtain ⟨-, rfl⟩ := Prod.mk.inj (Except.ok.inj a4)
      have hv := askAll_inv ha
      have htot : (wi.tree.bodies.map m).sum = ((worldDynamic n (linksOf w)).map fun x => m x.1).sum := by rw [dyn_total, hw.same]
      rw [htot]
      refine weight_list hst hν (fun x hx => (hmass x hx).1) (fun x hx => (hmass x hx).2.1) ?_
      rw [List.forall₂_map_left_iff] at hv
      refine hv.imp fun γ v h1 => ?_
      have h3 : weightUpdateE γ up a.dyn = .ok v := h1
      rw [a3] at h3
      exact h3
  have hN : s.nleffects = 0 := by
    rw [hs0.nleffects, hdyn]
    exact nl_slid hst
  have hV : s.viscosity = 0 := by
    rw [hs0.viscosity, hdyn, worldViscosity_eq]
    refine List.sum_eq_zero fun A hA => ?_
    obtain ⟨x, hx, rfl⟩ := List.mem_map.mp hA
    rw [(hmass x hx).2.2, Matrix.mul_zero, Matrix.zero_mul]
  rw [hN, hV, hctrl.2, add_zero, sub_zero, Matrix.zero_mulVec, sub_zero, hctrl.1] at hmom
  have hcar : ∀ x ∈ worldDynamic n (linksOf w'), Carried 0 u ν x.2 := by
    intro y hy
    obtain ⟨x, hx, h1, h2, h3, h4⟩ := rel_right hslid y hy
    have h5 := hν x hx
    unfold Carried at h5 ⊢
    rw [h4.jac, h4.rot]
    simpa using h5
  have htw := loose_twist hw.vel
  have htw' := loose_twist h.vel
  have hpu : ∀ {w : MWorld n Unit}, (∀ x ∈ worldDynamic n (linksOf w), Still x.2 ∧ Carried 0 u ν x.2 ∧ IsRigidMass x.1.mass (m x.1) (c x.1) (I x.1)) →
      u ⬝ᵥ momentum m c w = ((worldDynamic n (linksOf w)).map fun x => (x.2.jac *ᵥ ν) ⬝ᵥ x.1.mass *ᵥ x.2.twist).sum := by
    intro w hx
    unfold momentum
    rw [dot_list_sum, List.map_map]
    congr 1
    apply List.map_congr_left
    intro x hx'
    obtain ⟨k1, k2, k3⟩ := hx x hx'
    exact (momentum_dot k3 k1 k2 k1.twist).symm
  refine ⟨⟨?_, ?_, ?_, ?_, h.vel⟩, hcar, ?_, ?_⟩
  · intro l hl
    obtain ⟨l0, hl0, hm0⟩ := h.tree.mem hl
    exact ⟨(slid_of (hw.links l0 hl0).1 hm0).2, rigid_moved (hw.links l0 hl0).1 (hw.links l0 hl0).2 hm0⟩
  · rw [← h.tree.links.2]
    exact hw.bodies
  · rw [← h.tree.links.2]
    exact hw.same
  · intro k hk
    rw [h.cons] at hk
    obtain ⟨b, -, -, -, -, b5⟩ := hs0.cons
    have e1 := solved_classes b5
    have e2 : k.cls ∈ s.cons.map (·.cls) := List.mem_map.mpr ⟨k, hk, rfl⟩
    rw [e1, List.map_map] at e2
    obtain ⟨k1, hk1, hk2⟩ := List.mem_map.mp e2
    simp only [Function.comp_apply] at hk2
    rw [hi.cls] at hk2
    obtain ⟨k0, hk0, hk3⟩ := hw.cons k1 hk1
    exact ⟨k0, hk0, hk3.trans hk2⟩
  · unfold momentum
    rw [hlo s hs0.tree]
  · rw [hpu fun x hx => ⟨hst x hx, hν x hx, (hmass x hx).1⟩]
    rw [hpu fun y hy => by
      obtain ⟨x, hx, h1, h2, h3, h4⟩ := rel_right hslid y hy
      exact ⟨h3, hcar y hy, h1 ▸ (hmass x hx).1⟩]
    rw [← hmom]
    have e : ((worldDynamic n (linksOf w')).map fun x => (x.2.jac *ᵥ ν) ⬝ᵥ x.1.mass *ᵥ x.2.twist) =
        (worldDynamic n (linksOf w)).map fun x => (x.2.jac *ᵥ ν) ⬝ᵥ x.1.mass *ᵥ (x.2.jac *ᵥ w'.gvel) := by
      have e1 : ((worldDynamic n (linksOf w')).map fun x => (x.2.jac *ᵥ ν) ⬝ᵥ x.1.mass *ᵥ x.2.twist) =
          (worldDynamic n (linksOf w')).map fun x => (x.2.jac *ᵥ ν) ⬝ᵥ x.1.mass *ᵥ (x.2.jac *ᵥ w'.gvel) :=
        List.map_congr_left fun x hx => by rw [htw' x hx]
      rw [e1]
      exact slid_map hslid fun b J => (J *ᵥ ν) ⬝ᵥ b.mass *ᵥ (J *ᵥ w'.gvel)
    rw [e, ← List.sum_map_add]
    congr 1
    apply List.map_congr_left
    intro x hx
    rw [← dotProduct_add, ← Matrix.mulVec_add, add_sub_cancel]

/-! ### A run -/

lemma momentum_evolves {up : Vec3} {gs : List ℝ} {m : Body → ℝ} {c : Body → Vec3} {I : Body → Mat3} {P : Plug n Unit} (hP : P.ctrl = (libPlug n up (gs.map .weight)).ctrl)
    {wi : MWorld n Unit} (hi : InnerCons P wi) {u : Vec3} {ν : Fin n → ℝ} {tl : List ℝ} {w w' : MWorld n Unit} {seen : List (ℝ × ℝ × MWorld n Unit)}
    (h : Evolves P tl w seen w') : Loose m c I P wi w → (∀ x ∈ worldDynamic n (linksOf w), Carried 0 u ν x.2) → ∀ t0 t', tl.head? = some t0 → tl.getLast? = some t' →
    (∀ x ∈ seen, u ⬝ᵥ momentum m c x.2.2 = u ⬝ᵥ momentum m c w + (x.1 - t0) * (gs.sum * ((wi.tree.bodies.map m).sum * (u ⬝ᵥ up)))) ∧
      u ⬝ᵥ momentum m c w' = u ⬝ᵥ momentum m c w + (t' - t0) * (gs.sum * ((wi.tree.bodies.map m).sum * (u ⬝ᵥ up))) := by
  induction h with
  | done t w =>
    intro _ _ t0 t' h0 h1
    simp only [List.head?_cons, List.getLast?_singleton, Option.some.injEq] at h0 h1
    subst h0 h1
    simp
  | @step t t1 ts w s w1 w2 seen hs hrest ih =>
    intro hw hν t0 t' h0 h1
    simp only [List.head?_cons, Option.some.injEq] at h0
    subst h0
    obtain ⟨k1, k2, k3, k4⟩ := momentum_step hP hi hw hs hν
    obtain ⟨i1, i2⟩ := ih k1 k2 t1 t' rfl (by simpa [List.getLast?_cons_cons] using h1)
    refine ⟨fun x hx => ?_, ?_⟩
    · rcases List.mem_cons.mp hx with rfl | hx
      · simp [k3]
      · rw [i1 x hx, k4]
        ring
    · rw [i2, k4]
      ring

/-- C123.  Bodies which translate, joined to the ground by `TxTyTzJoint`s only and to each other by sliding joints, without viscosity; any number of
`WeightController`s (of gravities `gs`), and any number of contacts and ball-and-sockets between the bodies.  In every simulation, whatever the times, the
solver's iterations and the collisions that happen: at each observed state, and at the end, the linear momentum is the initial one plus the weight of
the bodies times the time elapsed. -/
theorem C123_run {up : Vec3} {gs : List ℝ} {m : Body → ℝ} {c : Body → Vec3} {P : Plug n Unit} (hP : P.ctrl = (libPlug n up (gs.map .weight)).ctrl)
    {w w' : MWorld n Unit} (hw : LooseWorld m c w) (hi : InnerCons P w) {tl : List ℝ} {k : ℕ} {tr : List (Ev (MWorld n Unit))} {t' : ℝ}
    (h : simulate (engine P) w tl (.list k) = (tr, .ok (w', t'))) :
    ∃ t0 w0 seen, tl.head? = some t0 ∧ tl.getLast? = some t' ∧ Mech.init w = .ok w0 ∧ tr = runCalls k t0 w0 tl seen ∧
      (∀ x ∈ seen, momentum m c x.2.2 = momentum m c w0 + ((x.1 - t0) * gs.sum * (w.tree.bodies.map m).sum) • up) ∧
      momentum m c w' = momentum m c w0 + ((t' - t0) * gs.sum * (w.tree.bodies.map m).sum) • up := by
  classical
  obtain ⟨t0, rest, w0, seen, h1, -, h2, h3, h4, h5⟩ := (C45_run ..).mp h
  obtain ⟨w0', h6, hst⟩ := init_started hw.dofs
  obtain rfl : w0' = w0 := Except.ok.inj (h6.symm.trans h2)
  have hev := steps_evolves h3 hst.vel
  have hlast : tl.getLast? = some t' := h5
  have hhead : tl.head? = some t0 := by rw [h1]; rfl
  set I : Body → Mat3 := fun b => if hb : ∃ I, IsRigidMass b.mass (m b) (c b) I then hb.choose else 0 with hI
  have hlinks : ∀ l ∈ w0'.tree.links, Sliding l ∧ RigidLink l := by
    intro l hl
    obtain ⟨l0, hl0, he⟩ := hst.tree.mem hl
    obtain ⟨k1, k2⟩ := hw.links l0 hl0
    rw [he]
    exact ⟨k1, ⟨k2.bpose0, k2.bpose1, k2.free⟩⟩
  have hloose : Loose m c I P w w0' := by
    refine ⟨hlinks, ?_, hst.tree.links.2.symm, ?_, hst.vel⟩
    · rw [← hst.tree.links.2]
      intro b hb
      obtain ⟨k1, k2⟩ := hw.bodies b hb
      refine ⟨?_, k2⟩
      rw [hI]
      dsimp only
      rw [dif_pos k1]
      exact k1.choose_spec
    · rw [hst.cons]
      exact fun k hk => ⟨k, hk, rfl⟩
  have hroots : ∀ {F G : Forest MLink Body}, ForestRel (fun l l' : MLink => l' = { l with start := l'.start }) F G → (∀ l ∈ roots F, ∃ q dq, l.att = .lin .TxTyTz q dq) →
      ∀ l ∈ roots G, ∃ q dq, l.att = .lin .TxTyTz q dq := by
    intro F G hFG
    induction hFG with
    | nil => simp [roots]
    | @cons l l' b ch ch' sib sib' hl _ _ _ ihs =>
      intro hF x hx
      simp only [roots, List.mem_cons] at hx hF
      rcases hx with rfl | hx
      · obtain ⟨q, dq, e⟩ := hF l (Or.inl rfl)
        refine ⟨q, dq, ?_⟩
        rw [hl]
        exact e
      · exact ihs (fun y hy => hF y (Or.inr hy)) x hx
  have hnd : ndof w0'.tree = n := by
    have hl := hst.tree.links.1
    have : ∀ {ls ls' : List MLink}, List.Forall₂ (fun l l' : MLink => l' = { l with start := l'.start }) ls ls' →
        (ls'.map fun l => l.att.ndof) = ls.map fun l => l.att.ndof := by
      intro ls ls' hh
      induction hh with
      | nil => rfl
      | cons h1 _ ih =>
        simp only [List.map_cons, ih]
        rw [h1]
    have e : ndof w0'.tree = ndof w.tree := by
      change (w0'.tree.links.map fun l => l.att.ndof).sum = (w.tree.links.map fun l => l.att.ndof).sum
      rw [this hl]
    rw [e, hw.dofs]
  have key : ∀ u : Vec3, (∀ x ∈ seen, u ⬝ᵥ momentum m c x.2.2 = u ⬝ᵥ momentum m c w0' + (x.1 - t0) * (gs.sum * ((w.tree.bodies.map m).sum * (u ⬝ᵥ up)))) ∧
      u ⬝ᵥ momentum m c w' = u ⬝ᵥ momentum m c w0' + (t' - t0) * (gs.sum * ((w.tree.bodies.map m).sum * (u ⬝ᵥ up))) := by
    intro u
    obtain ⟨ν, hν⟩ := carried_exists hnd hlinks (hroots hst.tree hw.roots) hst.numbered u
    exact momentum_evolves hP hi hev hloose hν t0 t' hhead hlast
  have ext : ∀ a b : Vec3, (∀ u, u ⬝ᵥ a = u ⬝ᵥ b) → a = b := by
    intro a b hab
    funext i
    simpa using hab (Pi.single i 1)
  refine ⟨t0, w0', seen, hhead, hlast, h6, h4, fun x hx => ext _ _ fun u => ?_, ext _ _ fun u => ?_⟩
  · rw [(key u).1 x hx, dotProduct_add, dotProduct_smul, smul_eq_mul]
    ring
  · rw [(key u).2, dotProduct_add, dotProduct_smul, smul_eq_mul]
    ring

end Arboris
