import Verif.Spec.World
import Verif.Props.Simulate
import Verif.Props.Step
import Verif.Props.Tree
import Verif.Props.Twist
import Verif.Props.Controllers

/-!
# C87: whole simulations
-/

namespace Arboris
open Matrix Spec Mech Build Sim

noncomputable section

lemma dynStepE_eq {n : ℕ} {l : Link} {s d : BodyDyn n} (h : dynStepE s l = .ok d) : d = dynStep s l := by
  have hA : ∀ {α : Type} {H : Mat4} {x y : α}, assertHom H x = .ok y → y = x := by
    intro α H x y h
    unfold assertHom at h
    split at h
    · exact (Except.ok.inj h).symm
    · cases h
  have hi : ∀ {H K : Mat4}, inv H = .ok K → K = invBody H := fun h => hA h
  have ha : ∀ {H : Mat4} {K : Mat6}, adjoint H = .ok K → K = adjointBody H := fun h => hA h
  unfold dynStepE at h
  cases h1 : inv l.bpose1 with
  | error e => simp [h1, bind, Except.bind] at h
  | ok a1 =>
  obtain rfl := hi h1
  cases h2 : iadjoint (l.bpose0 * (l.joint.pose * invBody l.bpose1)) with
  | error e => simp [h1, h2, bind, Except.bind] at h
  | ok a2 =>
  cases h3 : adjoint l.bpose1 with
  | error e => simp [h1, h2, h3, bind, Except.bind] at h
  | ok a3 =>
  obtain rfl := ha h3
  cases h4 : inv l.bpose0 with
  | error e => simp [h1, h2, h3, h4, bind, Except.bind] at h
  | ok a4 =>
  obtain rfl := hi h4
  cases h5 : adjoint (invBody l.bpose0) with
  | error e => simp [h1, h2, h3, h4, h5, bind, Except.bind] at h
  | ok a5 =>
  obtain rfl := ha h5
  cases h6 : adjoint l.joint.ipose with
  | error e => simp [h1, h2, h3, h4, h5, h6, bind, Except.bind] at h
  | ok a6 =>
  have e2 : a2 = iadjointBody (l.bpose0 * (l.joint.pose * invBody l.bpose1)) := by
    unfold iadjoint at h2
    cases h7 : inv (l.bpose0 * (l.joint.pose * invBody l.bpose1)) with
    | error e => simp [h7, bind, Except.bind] at h2
    | ok a7 =>
      obtain rfl := hi h7
      simp only [h7, bind, Except.bind] at h2
      exact ha h2
  subst e2
  simp only [h1, h2, h3, h4, h5, h6, bind, Except.bind] at h
  exact (Except.ok.inj h).symm

/-- when `update_dynamic` does not raise, it has stored the values of `updateDynamic` -/
lemma updateDynamicE_eq {B : Type} {n : ℕ} {F : Forest Link B} {s : BodyDyn n} {d : List (B × BodyDyn n)}
    (h : updateDynamicE s F = .ok d) : d = updateDynamic s F := by
  induction F generalizing s d with
  | nil => exact (Except.ok.inj h).symm
  | cons l b ch sib ih1 ih2 =>
    unfold updateDynamicE at h
    cases h1 : dynStepE s l with
    | error e => simp [h1, bind, Except.bind] at h
    | ok a1 =>
    obtain rfl := dynStepE_eq h1
    cases h2 : updateDynamicE (dynStep s l) ch with
    | error e => simp [h1, h2, bind, Except.bind] at h
    | ok a2 =>
    cases h3 : updateDynamicE s sib with
    | error e => simp [h1, h2, h3, bind, Except.bind] at h
    | ok a3 =>
    simp only [h1, h2, h3, bind, Except.bind] at h
    obtain rfl := ih1 h2
    obtain rfl := ih2 h3
    exact (Except.ok.inj h).symm

/-! ### the tree -/

lemma Spec.ForestRel.of_map {L B : Type} {R : L → L → Prop} (f : L → L) (F : Forest L B) (h : ∀ l ∈ F.links, R l (f l)) :
    ForestRel R F (F.map f id) := by
  induction F with
  | nil => exact .nil
  | cons l b ch sib ih1 ih2 =>
    simp only [Forest.links, List.cons_append, List.mem_cons, List.mem_append] at h
    exact .cons (h l (Or.inl rfl)) (ih1 fun x hx => h x (Or.inr (Or.inl hx))) (ih2 fun x hx => h x (Or.inr (Or.inr hx)))

lemma number_rel (a : ℕ) (F : Forest MLink Body) :
    ForestRel (fun l l' => l' = { l with start := l'.start }) F (number a F).1 := by
  induction F generalizing a with
  | nil => exact .nil
  | cons l b ch sib ih1 ih2 => exact .cons rfl (ih1 _) (ih2 _)

lemma Spec.Numbered.append {a : ℕ} {l₁ l₂ : List MLink} :
    Numbered a (l₁ ++ l₂) ↔ Numbered a l₁ ∧ Numbered (a + (l₁.map fun l => l.att.ndof).sum) l₂ := by
  induction l₁ generalizing a with
  | nil => simp [Numbered]
  | cons l l₁ ih => simp [Numbered, ih, and_assoc, add_assoc]

lemma number_spec (a : ℕ) (F : Forest MLink Body) :
    Numbered a (number a F).1.links ∧ (number a F).2 = a + ndof F ∧ ndof (number a F).1 = ndof F := by
  induction F generalizing a with
  | nil => simp [number, Forest.links, Numbered, ndof]
  | cons l b ch sib ih1 ih2 =>
    obtain ⟨h1, h2, h3⟩ := ih1 (a + l.att.ndof)
    obtain ⟨h4, h5, h6⟩ := ih2 (number (a + l.att.ndof) ch).2
    simp only [ndof] at h2 h3 h5 h6
    refine ⟨?_, ?_, ?_⟩
    · simp only [number, Forest.links, List.cons_append, Numbered, true_and]
      rw [Numbered.append]
      refine ⟨h1, ?_⟩
      rw [h3]
      rw [h2] at h4 ⊢
      exact h4
    · simp only [number, ndof, Forest.links, List.cons_append, List.map_cons, List.map_append, List.sum_cons, List.sum_append]
      rw [h5, h2]; ring
    · simp only [number, ndof, Forest.links, List.cons_append, List.map_cons, List.map_append, List.sum_cons, List.sum_append]
      rw [h3, h6]

lemma hasVel_lin {n : ℕ} {ν : Fin n → ℝ} {k : LinKind} {q dq : Fin k.ndof → ℝ} {s : ℕ} {b0 b1 : Mat4} :
    HasVel ν ⟨.lin k q dq, s, b0, b1⟩ ↔ ∃ h : s + k.ndof ≤ n, dq = slice ν s k.ndof h := Iff.rfl
lemma hasVel_free {n : ℕ} {ν : Fin n → ℝ} {H : Mat4} {T : Vec6} {s : ℕ} {b0 b1 : Mat4} :
    HasVel ν ⟨.free H T, s, b0, b1⟩ ↔ ∃ h : s + 6 ≤ n, T = slice ν s 6 h := Iff.rfl

/-- the joint's velocity, seen as the corresponding part of `ν` -/
lemma hasVel_iff {n : ℕ} (ν : Fin n → ℝ) (l : MLink) :
    HasVel ν l ↔ l.start + l.att.ndof ≤ n ∧ ∀ i, i < l.att.ndof → ∀ h : l.start + i < n, ν ⟨l.start + i, h⟩ = l.att.vel i := by
  obtain ⟨att, s, b0, b1⟩ := l
  cases att with
  | lin k q dq =>
    rw [hasVel_lin]
    simp only [JAttr.ndof, JAttr.vel]
    constructor
    · rintro ⟨h, rfl⟩
      refine ⟨h, fun i hi _ => ?_⟩
      rw [dif_pos hi]; rfl
    · rintro ⟨h, h2⟩
      refine ⟨h, funext fun i => ?_⟩
      have := h2 i.val i.isLt (by omega)
      rw [dif_pos i.isLt] at this
      exact this.symm
  | free H T =>
    rw [hasVel_free]
    simp only [JAttr.ndof, JAttr.vel]
    constructor
    · rintro ⟨h, rfl⟩
      refine ⟨h, fun i hi _ => ?_⟩
      rw [dif_pos hi]; rfl
    · rintro ⟨h, h2⟩
      refine ⟨h, funext fun i => ?_⟩
      have := h2 i.val i.isLt (by omega)
      rw [dif_pos i.isLt] at this
      exact this.symm
  | fixed => simp [HasVel, JAttr.ndof]

lemma Spec.Numbered.bounds {a : ℕ} {ls : List MLink} (h : Numbered a ls) {l : MLink} (hl : l ∈ ls) :
    a ≤ l.start ∧ l.start + l.att.ndof ≤ a + (ls.map fun l => l.att.ndof).sum := by
  induction ls generalizing a with
  | nil => cases hl
  | cons x ls ih =>
    obtain ⟨h1, h2⟩ := h
    simp only [List.map_cons, List.sum_cons]
    rcases List.mem_cons.mp hl with rfl | hl
    · omega
    · have := ih h2 hl; omega

/-- what the loop of `gather` does to the components outside the joints -/
lemma gather_outside {n : ℕ} {a : ℕ} {ls : List MLink} (h : Numbered a ls) (acc : Fin n → ℝ) (d : Fin n) (hd : d.val < a) :
    ls.foldl (fun acc l d => if l.start ≤ d.val ∧ d.val < l.start + l.att.ndof then l.att.vel (d.val - l.start) else acc d)
      acc d = acc d := by
  induction ls generalizing a acc with
  | nil => rfl
  | cons x ls ih =>
    obtain ⟨h1, h2⟩ := h
    rw [List.foldl_cons, ih h2 _ (by omega), if_neg (by omega)]

lemma gather_spec {n : ℕ} {a : ℕ} {ls : List MLink} (h : Numbered a ls) (acc : Fin n → ℝ) {l : MLink} (hl : l ∈ ls) (i : ℕ)
    (hi : i < l.att.ndof) (hn : l.start + i < n) :
    ls.foldl (fun acc l d => if l.start ≤ d.val ∧ d.val < l.start + l.att.ndof then l.att.vel (d.val - l.start) else acc d)
      acc ⟨l.start + i, hn⟩ = l.att.vel i := by
  induction ls generalizing a acc with
  | nil => cases hl
  | cons x ls ih =>
    obtain ⟨h1, h2⟩ := h
    rw [List.foldl_cons]
    by_cases hx : l ∈ ls
    · exact ih h2 _ hx
    · obtain rfl : l = x := by simpa [hx] using hl
      rw [gather_outside h2 _ _ (by simp only; omega), if_pos (by simp only; omega)]
      simp

/-- `world.init()` -/
lemma init_started {n : ℕ} {σ : Type} {w : MWorld n σ} (hn : ndof w.tree = n) :
    ∃ w0, Mech.init w = .ok w0 ∧ Started w w0 := by
  refine ⟨_, rfl, number_rel 0 w.tree, (number_spec 0 w.tree).1, ?_, rfl, rfl⟩
  intro l hl
  obtain ⟨h1, -, h3⟩ := number_spec 0 w.tree
  have hb := h1.bounds hl
  have he : ndof (number 0 w.tree).1 = n := by rw [h3, hn]
  simp only [ndof] at he
  refine (hasVel_iff _ _).mpr ⟨by omega, fun i hi hh => gather_spec h1 _ hl i hi hh⟩

/-! ### a step -/

lemma Spec.HasVel.consistent {n : ℕ} {ν : Fin n → ℝ} {l : MLink} (h : HasVel ν l) : Consistent ν l.link := by
  obtain ⟨att, s, b0, b1⟩ := l
  cases att with
  | lin k q dq => obtain ⟨hh, rfl⟩ := hasVel_lin.mp h; clear h; rename _ ≤ _ => h; exact ⟨h, rfl⟩
  | free H T => obtain ⟨hh, rfl⟩ := hasVel_free.mp h; clear h; rename _ ≤ _ => h; exact ⟨h, (Matrix.one_mulVec _).symm⟩
  | fixed =>
    refine ⟨h, ?_⟩
    have : ∀ x : Fin 0 → ℝ, (0 : Vec6) = (0 : Matrix (Fin 6) (Fin 0) ℝ) *ᵥ x := fun x => by simp
    exact this _

lemma part_slice {n : ℕ} (v : Fin n → ℝ) (s k : ℕ) (h : s + k ≤ n) : (fun i : Fin k => part v s i.val) = slice v s k h := by
  funext i
  have := i.isLt
  simp only [part, slice]
  rw [dif_pos (by omega)]

lemma moved_advance {n : ℕ} {ν : Fin n → ℝ} (v : Fin n → ℝ) (dt : ℝ) {l : MLink} (h : HasVel ν l) :
    Moved dt v l (advance v dt l) ∧ HasVel v (advance v dt l) := by
  obtain ⟨att, s, b0, b1⟩ := l
  cases att with
  | lin k q dq =>
    obtain ⟨hh, rfl⟩ := hasVel_lin.mp h; clear h; rename _ ≤ _ => h
    have hp := part_slice v s k.ndof h
    refine ⟨⟨rfl, rfl, rfl, ?_⟩, ⟨h, hp⟩⟩
    have := JMoved.lin (dt := dt) (ν := v) (start := s) k q (slice ν s k.ndof h) h
    simp only [advance, JAttr.integrate, hp]
    exact this
  | free H T =>
    obtain ⟨hh, rfl⟩ := hasVel_free.mp h; clear h; rename _ ≤ _ => h
    have hp := part_slice v s 6 h
    refine ⟨⟨rfl, rfl, rfl, ?_⟩, ⟨h, hp⟩⟩
    simp only [advance, JAttr.integrate, hp]
    exact JMoved.free H _ _ h rfl fun hc => by
      rcases hc with hc | hc
      · exact ⟨(C10_translation hc).2.2, (C10_translation hc).2.1⟩
      · exact C10_exp hc
  | fixed => exact ⟨⟨rfl, rfl, rfl, .fixed⟩, h⟩

lemma activeCons_cons {n : ℕ} (dt : ℝ) (c : Con n) (cs : List (Con n)) :
    activeCons dt (c :: cs) =
      if c.cls.enabled c.st then
        if c.cls.active (c.cls.update c.st dt) then ⟨c.cls, c.cls.update c.st dt⟩ :: activeCons dt cs else activeCons dt cs
      else activeCons dt cs := by
  unfold activeCons
  rw [List.filterMap_cons]
  split <;> rename_i h
  · split at h
    · rename_i h1
      simp only [h1, if_true]
      simp only at h
      split at h
      · cases h
      · rename_i h2; simp only [h2, if_false]; rfl
    · rename_i h1; simp only [h1, if_false]; rfl
  · split at h
    · rename_i h1
      simp only at h
      split at h
      · rename_i h2
        simp only [h1, h2, if_true]
        rw [← Option.some.inj h]
      · cases h
    · cases h

/-- the constraints written back: the classes of the solved list are those of the active constraints -/
lemma solved_writeBack {n : ℕ} (dt : ℝ) (cs solved : List (Con n))
    (h : List.Forall₂ (fun c d => ∃ s, d = (⟨c.cls, s⟩ : Con n) ∧ Resolves c.cls dt c.st s) (activeCons dt cs) solved) :
    Solved dt cs (writeBack dt cs solved) (totalForce solved) := by
  induction cs generalizing solved with
  | nil =>
    have : solved = [] := by
      have := h.length_eq
      exact List.length_eq_zero_iff.mp (by simpa [activeCons] using this.symm)
    subst this
    simpa [writeBack, totalForce] using Solved.nil (n := n) (dt := dt)
  | cons c cs ih =>
    rw [activeCons_cons] at h
    unfold writeBack
    split
    · rename_i h1
      rw [if_pos h1] at h
      split
      · rename_i h2
        rw [if_pos h2] at h
        cases h with
        | cons hd tl =>
          rename_i d ds
          obtain ⟨s, rfl, hr⟩ := hd
          simp only [totalForce, List.map_cons, List.sum_cons]
          exact .active h1 h2 s hr (ih ds tl)
      · rename_i h2
        rw [if_neg h2] at h
        exact .inactive h1 (by simpa using h2) (ih _ h)
    · rename_i h1
      rw [if_neg h1] at h
      exact .disabled (by simpa using h1) (ih _ h)

lemma gsCons_classes {n : ℕ} {cs : List (Con n)} {dt : ℝ} (s : GS cs) (hr : ∀ i, Resolves (cs.get i).cls dt (cs.get i).st (s.st i)) :
    List.Forall₂ (fun c d => ∃ s, d = (⟨c.cls, s⟩ : Con n) ∧ Resolves c.cls dt c.st s) cs s.cons := by
  have h : ∀ l : List (Fin cs.length), List.Forall₂ (fun c d => ∃ s, d = (⟨c.cls, s⟩ : Con n) ∧ Resolves c.cls dt c.st s) (l.map cs.get)
      (l.map fun i => ⟨(cs.get i).cls, s.st i⟩) := by
    intro l
    induction l with
    | nil => exact .nil
    | cons i l ih => exact .cons ⟨s.st i, rfl, hr i⟩ ih
  have h2 := h (List.finRange cs.length)
  rwa [show (List.finRange cs.length).map cs.get = cs from by simp] at h2

lemma gsRun_resolves {n : ℕ} (cs : List (Con n)) (Y mass : Matrix (Fin n) (Fin n) ℝ) (gvel gforce : Fin n → ℝ) (dt : ℝ) (maxiters : ℕ) (tol : ℝ)
    (i : Fin cs.length) : Resolves (cs.get i).cls dt (cs.get i).st ((gsRun cs Y mass gvel gforce dt maxiters tol).st i) := by
  obtain ⟨is, h⟩ := C36_loop cs Y mass gvel gforce dt maxiters tol
  rw [h]
  have key : ∀ (is : List (Fin cs.length)) (s : GS cs), Resolves (cs.get i).cls dt (cs.get i).st (s.st i) →
      Resolves (cs.get i).cls dt (cs.get i).st ((is.foldl (solveOne cs (gsAdm cs Y) dt) s).st i) := by
    intro is
    induction is with
    | nil => exact fun s hs => hs
    | cons j is ih =>
      intro s hs
      refine ih _ ?_
      by_cases hj : i = j
      · subst hj
        have e : (solveOne cs (gsAdm cs Y) dt s i).st i = ((cs.get i).cls.solve (s.st i) (velOf cs s.vel i) (admOf cs (gsAdm cs Y) i) dt).1 := by
          simp [solveOne]
        rw [e]
        exact hs.solve _ _
      · have e : (solveOne cs (gsAdm cs Y) dt s j).st i = s.st i := by
          simp [solveOne, Function.update_of_ne hj]
        rw [e]
        exact hs
  exact key is _ .refl

lemma stepGvel_of {n : ℕ} {mass visc nle : Matrix (Fin n) (Fin n) ℝ} {gvel v g : Fin n → ℝ} {vals : List (CtrlVal n)}
    {cs solved : List (Con n)} {dt : ℝ} {o : CtrlOut n} (ho : updateControllers mass visc nle dt vals = .ok o)
    (hg : updateConstraints mass gvel o cs dt = .ok (g, solved))
    (hv : integrateGvel mass o.admittance gvel g dt = .ok v) :
    0 < dt ∧ g = (vals.map (·.gforce)).sum + totalForce solved ∧ (∃ s : GS (activeCons dt cs), solved = s.cons ∧ ∀ i, Resolves ((activeCons dt cs).get i).cls dt ((activeCons dt cs).get i).st (s.st i)) ∧
    EquationOfMotion mass visc nle (vals.map (·.impedance)).sum dt gvel v ((vals.map (·.gforce)).sum + totalForce solved) := by
  have hstep : stepGvel mass visc nle gvel vals cs dt = .ok (v, solved) := by
    unfold stepGvel
    simp only [ho, hg, hv]
  obtain ⟨hdt, -, hgf, -, -⟩ := (C33_sum _ _ _ _ _ _).mp ho
  refine ⟨hdt, ?_, ?_, C32_motion hstep⟩
  all_goals
    unfold updateConstraints at hg
    rw [if_pos hdt] at hg
    have h1 := Except.ok.inj hg
    obtain ⟨h2, h3⟩ := Prod.mk.inj h1
  · rw [← h2, ← h3, totalForce_cons, addGforces_eq, hgf]
  · exact ⟨_, h3.symm, gsRun_resolves _ _ _ _ _ _ _ _⟩

/-- One step of the loop of `simulate`. -/
lemma step_wstep {n : ℕ} {σ : Type} {P : Plug n σ} {dt : ℝ} {w a b c w' : MWorld n σ}
    (hv : ∀ l ∈ w.tree.links, HasVel w.gvel l) (hd : dynamic w = .ok a) (hc : controllers P dt a = .ok b)
    (hs : constraints P dt b = .ok c) (hi : Mech.integrate dt c = .ok w') : WStep P dt w c w' := by
  unfold dynamic at hd
  split at hd
  · cases hd
  · rename_i d hdy
    obtain rfl := Except.ok.inj hd
    obtain rfl := updateDynamicE_eq hdy
    unfold controllers at hc
    split at hc
    · cases hc
    · rename_i m vals hvals
      split at hc
      · cases hc
      · rename_i o ho
        obtain rfl := Except.ok.inj hc
        unfold constraints at hs
        simp only at hs
        split at hs
        · cases hs
        · rename_i g solved hg
          obtain rfl := Except.ok.inj hs
          unfold Mech.integrate at hi
          simp only at hi
          split at hi
          · cases hi
          · rename_i v hvv
            obtain rfl := Except.ok.inj hi
            simp only at ho
            obtain ⟨hdt, hg1, ⟨gs, hg2, hgr⟩, hmotion⟩ := stepGvel_of ho hg hvv
            have hsol := solved_writeBack dt _ _ (gsCons_classes gs hgr)
            rw [← hg2] at hsol
            refine ⟨hdt, ⟨vals, totalForce solved, ⟨rfl, rfl, rfl, ?_, rfl, rfl, rfl,
              ⟨_, by rfl, by rfl, by rfl, by rfl, by rfl, by rfl, hvals⟩,
              ⟨_, by rfl, by rfl, by rfl, by rfl, hsol⟩, hg1⟩, hmotion⟩, ?_, ?_, rfl, rfl⟩
            · apply C21_twist
              intro l hl
              rw [links_map] at hl
              obtain ⟨l', hl', rfl⟩ := List.mem_map.mp hl
              exact (hv l' hl').consistent
            · exact ForestRel.of_map _ _ fun l hl => (moved_advance v dt (hv l hl)).1
            · intro l hl
              simp only [links_map] at hl
              obtain ⟨l', hl', rfl⟩ := List.mem_map.mp hl
              exact (moved_advance v dt (hv l' hl')).2

lemma steps_evolves {n : ℕ} {σ : Type} {P : Plug n σ} {tl : List ℝ} {w w' : MWorld n σ} {obs : List (ℝ × ℝ × MWorld n σ)}
    (h : Steps (engine P) tl w obs w') (hv : ∀ l ∈ w.tree.links, HasVel w.gvel l) : Evolves P tl w obs w' := by
  induction h with
  | done t w => exact .done t w
  | step hdyn hctrl hcons hint _ ih =>
    have h1 := step_wstep hv hdyn hctrl hcons hint
    exact .step h1 (ih h1.vel)

/-- C87.  A simulation that returns normally is a discrete evolution of the mechanical system: `world.init()` numbers the dofs
and gathers the velocities; then, for each pair of successive times, the controllers and constraints are asked in a world
whose bodies are up to date, the observers see that world, and the state at the next time solves the discretised equation of
motion with all their forces and has every joint moved at its part of the new velocity. -/
theorem C87_run {n : ℕ} {σ : Type} {P : Plug n σ} {w w' : MWorld n σ} {tl : List ℝ} {k : ℕ} {tr : List (Ev (MWorld n σ))}
    {t' : ℝ} (hn : ndof w.tree = n) (h : simulate (engine P) w tl (.list k) = (tr, .ok (w', t'))) :
    ∃ t0 rest w0 seen, tl = t0 :: rest ∧ Started w w0 ∧ Evolves P tl w0 seen w' ∧ tr = runCalls k t0 w0 tl seen ∧
      tl.getLast? = some t' := by
  obtain ⟨t0, rest, w0, seen, h1, -, h2, h3, h4, h5⟩ := (C45_run ..).mp h
  obtain ⟨w0', h6, h7⟩ := init_started hn
  obtain rfl : w0' = w0 := Except.ok.inj (h6.symm.trans h2)
  exact ⟨t0, rest, w0', seen, h1, h7, steps_evolves h3 h7.vel, h4, h5⟩

/-! ### what holds at every step -/

lemma Spec.ForestRel.links {L B : Type} {R : L → L → Prop} {F G : Forest L B} (h : ForestRel R F G) :
    List.Forall₂ R F.links G.links ∧ F.bodies = G.bodies := by
  induction h with
  | nil => exact ⟨.nil, rfl⟩
  | cons hl _ _ ih1 ih2 =>
    exact ⟨.cons hl (List.rel_append ih1.1 ih2.1), by simp [Forest.bodies, ih1.2, ih2.2]⟩

lemma Spec.ForestRel.mem {L B : Type} {R : L → L → Prop} {F G : Forest L B} (h : ForestRel R F G) {l' : L} (hl : l' ∈ G.links) :
    ∃ l ∈ F.links, R l l' := by
  obtain ⟨h1, -⟩ := h.links
  revert hl
  generalize F.links = a at h1 ⊢
  generalize G.links = b at h1 ⊢
  induction h1 with
  | nil => intro hl; cases hl
  | cons hr _ ih =>
    intro hl
    rcases List.mem_cons.mp hl with rfl | hl
    · exact ⟨_, List.mem_cons_self .., hr⟩
    · obtain ⟨x, hx, hr⟩ := ih hl
      exact ⟨x, by simp [hx], hr⟩

/-- C87: in every state shown to the observers, for every body `twist = jacobian · gvel`, and the poses, jacobians and
the matrices of the world are those of the current positions and velocities; the bodies are those of the initial world. -/
theorem C87_seen {n : ℕ} {σ : Type} {P : Plug n σ} {w w' : MWorld n σ} {tl : List ℝ} {k : ℕ} {tr : List (Ev (MWorld n σ))}
    {t' : ℝ} (hn : ndof w.tree = n) (h : simulate (engine P) w tl (.list k) = (tr, .ok (w', t')))
    {i : ℕ} {dt t : ℝ} {c : MWorld n σ} (hi : Ev.obsUpdate i dt t c ∈ tr) :
    0 < dt ∧ c.tree.bodies = w.tree.bodies ∧ (∀ l ∈ c.tree.links, HasVel c.gvel l) ∧
    c.dyn = worldDynamic n (linksOf c) ∧ (∀ x ∈ c.dyn, x.2.twist = x.2.jac *ᵥ c.gvel) ∧ c.mass = worldMass c.dyn ∧
    c.viscosity = worldViscosity c.dyn ∧ c.nleffects = worldNleffects c.dyn := by
  obtain ⟨t0, rest, w0, seen, rfl, hst, hev, rfl, -⟩ := C87_run hn h
  have hmem : (t, dt, c) ∈ seen := by
    simp only [runCalls, List.mem_append, List.mem_singleton, reduceCtorEq, List.mem_map, List.mem_flatMap, false_or,
      exists_false, and_false, or_false, stepCalls, List.mem_cons, List.not_mem_nil] at hi
    obtain ⟨o, ho, j, -, hj⟩ := hi
    obtain ⟨-, rfl, rfl, rfl⟩ := Ev.obsUpdate.inj hj
    exact ho
  have hb : w0.tree.bodies = w.tree.bodies := hst.tree.links.2.symm
  have hv := hst.vel
  clear h hi hst
  generalize t0 :: rest = tl at hev
  revert hmem hb hv
  induction hev with
  | done t w => intro h; cases h
  | step hs hrest ih =>
    rename_i t1 t2 ts1 w1 c1 w2 w3 seen'
    intro hmem hb hv
    rcases List.mem_cons.mp hmem with heq | hmem
    · obtain ⟨rfl, rfl, rfl⟩ : t = t1 ∧ dt = t2 - t1 ∧ c = c1 := by
        obtain ⟨h1, h2⟩ := Prod.mk.inj heq
        obtain ⟨h2, h3⟩ := Prod.mk.inj h2
        exact ⟨h1, h2, h3⟩
      obtain ⟨vals, F, hseen, -⟩ := hs.motion
      refine ⟨hs.pos, by rw [hseen.tree, hb], ?_, ?_, ?_, hseen.mass, hseen.viscosity, hseen.nleffects⟩
      · rw [hseen.tree, hseen.gvel]; exact hv
      · rw [hseen.dyn, linksOf, linksOf, hseen.tree]
      · rw [hseen.gvel]; exact hseen.twist
    · exact ih hmem (by rw [← hs.tree.links.2, hb]) hs.vel

lemma Spec.RigidLink.valid {l : MLink} (h : RigidLink l) : ValidLink l.link := by
  obtain ⟨att, s, b0, b1⟩ := l
  cases att with
  | lin k q dq => exact (C20_library_valid k (fun _ => q) (fun _ => dq) s h.bpose0 h.bpose1 0 (H := fun _ => 1) isRigid_one 0).1
  | free H T => exact ⟨h.bpose0, h.bpose1, h.free H T rfl, (h.free H T rfl).mul_invBody⟩
  | fixed => exact ⟨h.bpose0, h.bpose1, isRigid_one, isRigid_one.mul_invBody⟩

lemma Spec.Moved.rigid {n : ℕ} {dt : ℝ} {ν : Fin n → ℝ} {l l' : MLink} (h : Moved dt ν l l') (hr : RigidLink l)
    (hs : NotSlow dt l') : RigidLink l' := by
  refine ⟨by rw [h.bpose0]; exact hr.bpose0, by rw [h.bpose1]; exact hr.bpose1, ?_⟩
  intro H T hH
  have hj := h.joint
  rw [hH] at hj
  generalize hatt : l.att = att at hj
  cases hj with
  | free H0 E T0 hle hE hexp =>
    refine (hr.free _ _ hatt).mul (hexp ?_).2
    exact hs _ _ hH

lemma Spec.Moved.notFree {n : ℕ} {dt : ℝ} {ν : Fin n → ℝ} {l l' : MLink} (h : Moved dt ν l l') (hr : NotFree l) :
    NotFree l' := by
  intro H T hH
  have hj := h.joint
  rw [hH] at hj
  generalize hatt : l.att = att at hj
  cases hj with
  | free H0 E T0 hle hE hexp => exact hr _ _ hatt

/-- C87: in a simulation of a world whose frames are rigid motions and where no free joint ever rotates by a non-zero angle
below 0.001 rad in one step, every body pose shown to the observers is a rigid motion. -/
theorem C87_rigid {n : ℕ} {σ : Type} {P : Plug n σ} {w w' : MWorld n σ} {tl : List ℝ} {k : ℕ} {tr : List (Ev (MWorld n σ))}
    {t' : ℝ} (hn : ndof w.tree = n) (h : simulate (engine P) w tl (.list k) = (tr, .ok (w', t')))
    (hr : ∀ l ∈ w.tree.links, RigidLink l) :
    ∃ t0 w0 seen, tr = runCalls k t0 w0 tl seen ∧
      ((∀ p ∈ seen.zip ((seen.map (·.2.2)).tail ++ [w']), ∀ l ∈ p.2.tree.links, NotSlow p.1.2.1 l) →
        (∀ s ∈ seen, ∀ x ∈ s.2.2.dyn, IsRigid x.2.pose) ∧ ∀ l ∈ w'.tree.links, RigidLink l) := by
  obtain ⟨t0, rest, w0, seen, rfl, hst, hev, rfl, -⟩ := C87_run hn h
  refine ⟨t0, w0, seen, rfl, ?_⟩
  have hr0 : ∀ l ∈ w0.tree.links, RigidLink l := by
    intro l hl
    obtain ⟨l0, hl0, he⟩ := hst.tree.mem hl
    have := hr l0 hl0
    rw [he]
    exact ⟨this.bpose0, this.bpose1, this.free⟩
  clear h hst hr
  generalize t0 :: rest = tl at hev
  revert hr0
  induction hev with
  | done t w => intro h _; exact ⟨by simp, h⟩
  | step hs hrest ih =>
    rename_i t1 t2 ts w1 c1 w2 w3 seen'
    intro hr0 hslow
    have hslow2 : ∀ l ∈ w2.tree.links, NotSlow (t2 - t1) l := by
      intro l hl
      cases hrest with
      | done => exact hslow ((t1, t2 - t1, c1), w2) (by simp) l hl
      | step hs' hrest' =>
        rename_i t3 ts' c2 w4 seen2
        refine hslow ((t1, t2 - t1, c1), c2) (by simp) l ?_
        obtain ⟨_, _, hseen, -⟩ := hs'.motion
        rw [hseen.tree]; exact hl
    have hr2 : ∀ l ∈ w2.tree.links, RigidLink l := by
      intro l' hl'
      obtain ⟨l, hl, hm⟩ := hs.tree.mem hl'
      exact hm.rigid (hr0 l hl) (hslow2 l' hl')
    obtain ⟨hA, hB⟩ := ih hr2 (by
      intro p hp
      refine hslow p ?_
      cases hrest with
      | done => simp at hp
      | step hs' hrest' => simpa using Or.inr (by simpa using hp))
    refine ⟨?_, hB⟩
    intro s hs1 x hx
    rcases List.mem_cons.mp hs1 with rfl | hs1
    · obtain ⟨_, _, hseen, -⟩ := hs.motion
      have hx' : x ∈ worldDynamic n (linksOf w1) := by rw [← hseen.dyn]; exact hx
      have hval : ∀ l ∈ (linksOf w1).links, ValidLink l := by
        intro l hl
        rw [linksOf, links_map] at hl
        obtain ⟨l0, hl0, rfl⟩ := List.mem_map.mp hl
        exact (hr0 l0 hl0).valid
      have h1 := C20_dynamic n (linksOf w1)
      have h2 := C20_rigid (linksOf w1) hval
      have h3 : (x.1, x.2.pose) ∈ (worldDynamic n (linksOf w1)).map fun x => (x.1, x.2.pose) := List.mem_map.mpr ⟨x, hx', rfl⟩
      rw [h1] at h3
      exact h2.2 _ h3
    · exact hA s hs1 x hx

/-! ### what can go wrong -/

/-- errors of the loop of `simulate`: invariants `I` and `J` of the world, before and after `update_dynamic`, and what the operations may raise -/
lemma loop_error {W : Type*} {E : Engine W} {I J : W → Prop} {Q : PyErr → Prop}
    (hd : ∀ w, I w → ∃ a, E.dynamic w = .ok a ∧ J a)
    (hc : ∀ w dt, 0 < dt → J w → (∃ a, E.controllers dt w = .ok a ∧ J a) ∨ ∃ e, E.controllers dt w = .error e ∧ Q e)
    (hk : ∀ w dt, 0 < dt → J w → ∃ a, E.constraints dt w = .ok a ∧ J a)
    (hi : ∀ w dt, 0 < dt → J w → ∃ a, E.integrate dt w = .ok a ∧ I a) (n : ℕ) (ts : List ℝ) (tr tr' : List (Ev W)) (w : W)
    (t : ℝ) (e : PyErr) (hp : (t :: ts).Pairwise (· < ·)) (hw : I w) (h : loop E n ts tr w t = (tr', .error e)) :
    Q e ∧ ∃ dt, tr'.getLast? = some (.controllers dt) := by
  induction ts generalizing tr w t with
  | nil => simp [loop] at h
  | cons t1 ts ih =>
    obtain ⟨h1, h2⟩ := List.pairwise_cons.mp hp
    have hdt : 0 < t1 - t := sub_pos.mpr (h1 t1 (by simp))
    simp only [loop] at h
    obtain ⟨a, ha, hIa⟩ := hd w hw
    simp only [ha, call, if_pos hdt] at h
    rcases hc a _ hdt hIa with ⟨b, hb, hIb⟩ | ⟨e', he, hQ⟩
    · obtain ⟨c, hcc, hIc⟩ := hk b _ hdt hIb
      obtain ⟨d, hdd, hId⟩ := hi c _ hdt hIc
      simp only [hb, hcc, hdd] at h
      rw [add_sub_cancel] at h
      exact ih _ _ _ h2 hId h
    · simp only [he] at h
      obtain ⟨h3, h4⟩ := Prod.mk.inj h
      obtain rfl := Except.error.inj h4
      exact ⟨hQ, t1 - t, by rw [← h3]; simp⟩

/-- C87: on a strictly increasing timeline, in a world whose frames are rigid motions and without free joints, with
controllers that do not raise, the only way a simulation may fail is `LinAlgError` in `update_controllers`: a singular
impedance matrix.  No assertion ever fires. -/
theorem C87_failures {n : ℕ} {σ : Type} {P : Plug n σ} {w : MWorld n σ} {tl : List ℝ} {k : ℕ} {tr : List (Ev (MWorld n σ))}
    {e : PyErr} (hr : ∀ l ∈ w.tree.links, RigidLink l ∧ NotFree l) (htl : tl ≠ []) (hp : tl.Pairwise (· < ·))
    (hP : ∀ w dt, ∃ r, P.ctrl w dt = .ok r) (h : simulate (engine P) w tl (.list k) = (tr, .error e)) :
    e = .linAlgError ∧ ∃ dt, tr.getLast? = some (.controllers dt) := by
  cases tl with
  | nil => exact absurd rfl htl
  | cons t0 rest =>
    let I : MWorld n σ → Prop := fun w => ∀ l ∈ w.tree.links, RigidLink l ∧ NotFree l
    have hnum : I { w with tree := (number 0 w.tree).1 } := by
      intro l hl
      obtain ⟨l0, hl0, he⟩ := (number_rel 0 w.tree).mem hl
      obtain ⟨h1, h2⟩ := hr l0 hl0
      rw [he]
      exact ⟨⟨h1.bpose0, h1.bpose1, h1.free⟩, h2⟩
    simp only [simulate, engine, Mech.init, call, Observers.first, Observers.later] at h
    split at h
    · rename_i tr1 e1 hl
      obtain ⟨h1, h2⟩ := Prod.mk.inj h
      obtain rfl := Except.error.inj h2
      subst h1
      refine loop_error (E := engine P) (I := I) (J := I) (Q := fun e => e = .linAlgError) ?_ ?_ ?_ ?_ k rest _ _ _ t0 _ hp ?_ hl
      · intro w hw
        have hval : ∀ l ∈ (w.tree.map MLink.link id).links, ValidLink l := by
          intro l hl
          rw [links_map] at hl
          obtain ⟨l0, hl0, rfl⟩ := List.mem_map.mp hl
          exact (hw l0 hl0).1.valid
        have := (C20_no_assertion n _ hval).2
        simp only [engine, dynamic, this]
        exact ⟨_, rfl, hw⟩
      · intro w dt hdt hw
        obtain ⟨⟨m, vals⟩, hvals⟩ := hP w dt
        simp only [engine, controllers, hvals]
        cases ho : updateControllers w.mass w.viscosity w.nleffects dt vals with
        | ok o => exact Or.inl ⟨_, rfl, hw⟩
        | error e' =>
          refine Or.inr ⟨e', rfl, ?_⟩
          simp only [updateControllers, if_pos hdt] at ho
          split at ho
          · exact (Except.error.inj ho).symm
          · cases ho
      · intro w dt hdt hw
        simp only [engine, constraints, updateConstraints, if_pos hdt]
        exact ⟨_, rfl, hw⟩
      · intro w dt hdt hw
        simp only [engine, Mech.integrate, integrateGvel, if_pos hdt]
        refine ⟨_, rfl, ?_⟩
        intro l hl
        simp only [links_map] at hl
        obtain ⟨l0, hl0, rfl⟩ := List.mem_map.mp hl
        obtain ⟨h1, h2⟩ := hw l0 hl0
        obtain ⟨att, s, b0, b1⟩ := l0
        cases att with
        | lin k q dq => exact ⟨⟨h1.bpose0, h1.bpose1, fun H T hH => by cases hH⟩, fun H T hH => by cases hH⟩
        | free H T => exact absurd rfl (h2 H T)
        | fixed => exact ⟨⟨h1.bpose0, h1.bpose1, fun H T hH => by cases hH⟩, fun H T hH => by cases hH⟩
      · exact hnum
    · obtain ⟨-, h2⟩ := Prod.mk.inj h
      cases h2

/-! ### a world that meets the hypotheses -/

/-- a unit-inertia body turning about the vertical axis of the ground -/
def topTree (start : ℕ) (q dq : Fin 1 → ℝ) : Forest MLink Body := .cons ⟨.lin .Rz q dq, start, 1, 1⟩ ⟨1, 0⟩ .nil .nil

/-- its world, turning at 1 rad/s -/
def top : MWorld 1 Unit := ⟨topTree 0 0 1, 0, [], 0, 0, 0, ⟨0, 0, 0⟩, [], ()⟩

/-- no controller -/
def noPlug : Plug 1 Unit := ⟨fun _ _ => .ok ((), []), fun _ c => c⟩

lemma top_dyn (q dq : Fin 1 → ℝ) :
    ∃ d : BodyDyn 1, worldDynamic 1 ((topTree 0 q dq).map MLink.link id) = [(⟨1, 0⟩, d)] ∧
      d.jac = (!![0; 0; 1; 0; 0; 0] : Matrix (Fin 6) (Fin 1) ℝ) ∧ d.djac = 0 ∧ ang d.twist = dq 0 • ![0, 0, 1] := by
  have hinv : invBody (1 : Mat4) = 1 := by
    have := isRigid_one.invBody_mul; simpa using this
  have had : adjointBody (1 : Mat4) = 1 := by
    have : (1 : Mat4) = mkH 1 0 := mkH_one.symm
    rw [this, adjointBody_mkH]
    simp [skew_zero, blk_one]
  refine ⟨_, rfl, ?_, ?_, ?_⟩
  · simp only [dynStep, groundDyn, MLink.link, JAttr.val, LinKind.val, had, Matrix.one_mul, Matrix.mul_zero]
    have h : ∀ J : Matrix (Fin 6) (Fin 1) ℝ, addCols (0 : Matrix (Fin 6) (Fin 1) ℝ) 0 1 ((1 : Mat6) * J) = J := by
      intro J
      ext i c
      fin_cases c
      simp [addCols]
    exact h _
  · simp only [dynStep, groundDyn, MLink.link, JAttr.val, LinKind.val, had, Matrix.one_mul, Matrix.mul_zero, LinKind.djac]
    have h : addCols (0 : Matrix (Fin 6) (Fin 1) ℝ) 0 1 ((1 : Mat6) * (0 : Matrix (Fin 6) (Fin 1) ℝ)) = 0 := by
      ext i c
      simp [addCols]
    rw [add_zero]; exact h
  · simp only [dynStep, groundDyn, MLink.link, JAttr.val, LinKind.val, had, Matrix.one_mulVec, Matrix.mulVec_zero, zero_add,
      LinKind.jac]
    have h : ang ((!![0; 0; 1; 0; 0; 0] : Matrix (Fin 6) (Fin 1) ℝ) *ᵥ dq) = dq 0 • ![0, 0, 1] := by
      ext i
      fin_cases i <;> simp [ang, Matrix.mulVec, dotProduct]
    exact h

lemma top_mass (q dq : Fin 1 → ℝ) :
    worldMass (worldDynamic 1 ((topTree 0 q dq).map MLink.link id)) = 1 ∧
    worldViscosity (worldDynamic 1 ((topTree 0 q dq).map MLink.link id)) = 0 ∧
    worldNleffects (worldDynamic 1 ((topTree 0 q dq).map MLink.link id)) = 0 := by
  obtain ⟨d, h, h1, h2, h3⟩ := top_dyn q dq
  rw [h]
  simp only [worldMass, worldViscosity, worldNleffects, List.foldl_cons, List.foldl_nil, zero_add, h1, h2, h3, bodyNleffects]
  refine ⟨?_, by simp, ?_⟩
  · ext i j
    fin_cases i; fin_cases j
    simp [Matrix.mul_apply, Fin.sum_univ_six]
  · have : b12 (1 : Mat6) = 0 := by rw [← blk_one, b12_blk]
    have hb : ∀ A B C D : Mat3, blk A B C D 2 2 = A 2 2 := fun _ _ _ _ => rfl
    have hj : ∀ X : Mat6, (!![0; 0; 1; 0; 0; 0] : Matrix (Fin 6) (Fin 1) ℝ)ᵀ *
        (X * (!![0; 0; 1; 0; 0; 0] : Matrix (Fin 6) (Fin 1) ℝ)) = X 2 2 • (1 : Matrix (Fin 1) (Fin 1) ℝ) := by
      intro X
      ext i j
      fin_cases i; fin_cases j
      simp [Matrix.mul_apply, Fin.sum_univ_six]
    rw [Matrix.mul_zero, zero_add, Matrix.mul_one, hj, hb]
    simp [skew]

/-- C87 (its hypotheses can be met): the simulation of this world returns normally on every strictly increasing timeline. -/
theorem C87_example (tl : List ℝ) (htl : tl ≠ []) (hp : tl.Pairwise (· < ·)) (k : ℕ) :
    ndof top.tree = 1 ∧ (∀ l ∈ top.tree.links, RigidLink l ∧ NotFree l) ∧
    ∃ tr w' t', simulate (engine noPlug) top tl (.list k) = (tr, .ok (w', t')) := by
  refine ⟨by simp [ndof, top, topTree, Forest.links, JAttr.ndof, LinKind.ndof], ?_, ?_⟩
  · intro l hl
    simp only [top, topTree, Forest.links, List.append_nil, List.mem_singleton] at hl
    subst hl
    exact ⟨⟨isRigid_one, isRigid_one, fun H T h => by cases h⟩, fun H T h => by cases h⟩
  cases tl with
  | nil => exact absurd rfl htl
  | cons t0 rest =>
    have key : ∀ tr' e tr w, (∃ q dq, w.tree = topTree 0 q dq) → loop (engine noPlug) k rest tr w t0 ≠ (tr', .error e) := by
      intro tr' e tr w hw hl
      refine (loop_error (E := engine noPlug) (I := fun w => ∃ q dq, w.tree = topTree 0 q dq)
        (J := fun w => (∃ q dq, w.tree = topTree 0 q dq) ∧ w.mass = 1 ∧ w.viscosity = 0 ∧ w.nleffects = 0) (Q := fun e => False)
        ?_ ?_ ?_ ?_ k rest tr tr' w t0 e hp hw hl).1
      · rintro w ⟨q, dq, hw⟩
        have hval : ∀ l ∈ ((topTree 0 q dq).map MLink.link id).links, ValidLink l := by
          intro l hl
          simp only [topTree, Forest.map, Forest.links, List.append_nil, List.mem_singleton] at hl
          subst hl
          exact Spec.RigidLink.valid ⟨isRigid_one, isRigid_one, fun H T h => by cases h⟩
        have h1 := (C20_no_assertion 1 _ hval).2
        simp only [engine, dynamic, hw, h1]
        exact ⟨_, rfl, ⟨q, dq, rfl⟩, top_mass q dq⟩
      · rintro w dt hdt ⟨hw, h1, h2, h3⟩
        left
        have : ∃ o, updateControllers w.mass w.viscosity w.nleffects dt [] = .ok o := by
          refine ⟨⟨0, dt⁻¹ • 1, dt • 1⟩, (C33_sum _ _ _ _ _ _).mpr ⟨hdt, ?_, by simp, by simp [h1, h2, h3], ?_⟩⟩
          · simp [hdt.ne']
          · rw [Matrix.smul_mul, Matrix.one_mul, smul_smul, mul_inv_cancel₀ hdt.ne', one_smul]
        obtain ⟨o, ho⟩ := this
        simp only [engine, controllers, noPlug, ho]
        exact ⟨_, rfl, hw, h1, h2, h3⟩
      · rintro w dt hdt hw
        simp only [engine, constraints, updateConstraints, if_pos hdt]
        exact ⟨_, rfl, hw⟩
      · rintro w dt hdt ⟨⟨q, dq, hw⟩, -⟩
        simp only [engine, Mech.integrate, integrateGvel, if_pos hdt, hw]
        exact ⟨_, rfl, _, _, rfl⟩
    simp only [simulate, Mech.init, engine, call]
    split
    · rename_i hl
      exact absurd hl (key _ _ _ _ ⟨0, 1, rfl⟩)
    · rename_i r _
      exact ⟨_, r.1, r.2, rfl⟩

end
end Arboris
