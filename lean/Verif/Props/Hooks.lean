import Verif.Spec.Hooks
import Verif.Props.PDRun

/-!
# C129: when the settings of the controllers are read
-/

namespace Arboris
open Matrix Spec Mech Build Sim

noncomputable section

variable {n : ℕ}

/-! ### a run through a map -/

lemma call_map {W V : Type*} {α β : Type*} (f : W → V) (g : α → β) (tr : List (Ev W)) (e : Ev W) (r : Except PyErr α) (r' : Except PyErr β)
    (k : List (Ev W) → α → List (Ev W) × Except PyErr (W × ℝ)) (k' : List (Ev V) → β → List (Ev V) × Except PyErr (V × ℝ))
    (hr : r' = r.map g)
    (hk : ∀ tr a, r = .ok a → k' (tr.map (seenAs f)) (g a) = ((k tr a).1.map (seenAs f), (k tr a).2.map fun x => (f x.1, x.2))) :
    call (tr.map (seenAs f)) (seenAs f e) r' k' = ((call tr e r k).1.map (seenAs f), (call tr e r k).2.map fun x => (f x.1, x.2)) := by
  subst hr
  cases r with
  | error x => simp [call, Except.map]
  | ok a =>
    simp only [call, Except.map]
    rw [← List.map_singleton, ← List.map_append]
    exact hk _ a rfl

lemma loop_map {W V : Type*} (f : W → V) (E : Engine W) (E' : Engine V) (I J : W → Prop)
    (h1 : ∀ w, I w → E'.dynamic (f w) = (E.dynamic w).map f) (h1' : ∀ w w', I w → E.dynamic w = .ok w' → J w')
    (h2 : ∀ dt w, J w → E'.controllers dt (f w) = (E.controllers dt w).map f) (h2' : ∀ dt w w', J w → E.controllers dt w = .ok w' → J w')
    (h3 : ∀ dt w, J w → E'.constraints dt (f w) = (E.constraints dt w).map f) (h3' : ∀ dt w w', J w → E.constraints dt w = .ok w' → J w')
    (h4 : ∀ dt w, J w → E'.integrate dt (f w) = (E.integrate dt w).map f) (h4' : ∀ dt w w', J w → E.integrate dt w = .ok w' → I w')
    (k : ℕ) (tl : List ℝ) (tr : List (Ev W)) (w : W) (t : ℝ) (hw : I w) :
    loop E' k tl (tr.map (seenAs f)) (f w) t = ((loop E k tl tr w t).1.map (seenAs f), (loop E k tl tr w t).2.map fun x => (f x.1, x.2)) := by
  classical
  induction tl generalizing tr w t with
  | nil => rfl
  | cons x tl ih =>
    unfold loop
    refine call_map f f tr (.dynamic t) _ _ _ _ (h1 w hw) fun tr w1 e1 => ?_
    have j1 := h1' w w1 hw e1
    refine call_map f f tr (.controllers (x - t)) _ _ _ _ ?_ fun tr w2 e2 => ?_
    · split_ifs
      · exact h2 _ w1 j1
      · rfl
    split_ifs at e2 with hd
    have j2 := h2' _ w1 w2 j1 e2
    refine call_map f f tr (.constraints (x - t)) _ _ _ _ (h3 _ w2 j2) fun tr w3 e3 => ?_
    have j3 := h3' _ w2 w3 j2 e3
    have e : (tr.map (seenAs f) ++ (List.range k).map fun i => Ev.obsUpdate i (x - t) t (f w3)) =
        (tr ++ (List.range k).map fun i => Ev.obsUpdate i (x - t) t w3).map (seenAs f) := by
      rw [List.map_append, List.map_map]; rfl
    simp only [e]
    refine call_map f f _ (.integrate (x - t)) _ _ _ _ ?_ fun tr w4 e4 => ?_
    · split_ifs
      exact h4 _ w3 j3
    rw [if_pos hd] at e4
    exact ih tr w4 _ (h4' _ w3 w4 j3 e4)

lemma simulate_map {W V : Type*} (f : W → V) (E : Engine W) (E' : Engine V) (I J : W → Prop)
    (w : W) (h0 : E'.init (f w) = (E.init w).map f) (h0' : ∀ w', E.init w = .ok w' → I w')
    (h1 : ∀ w, I w → E'.dynamic (f w) = (E.dynamic w).map f) (h1' : ∀ w w', I w → E.dynamic w = .ok w' → J w')
    (h2 : ∀ dt w, J w → E'.controllers dt (f w) = (E.controllers dt w).map f) (h2' : ∀ dt w w', J w → E.controllers dt w = .ok w' → J w')
    (h3 : ∀ dt w, J w → E'.constraints dt (f w) = (E.constraints dt w).map f) (h3' : ∀ dt w w', J w → E.constraints dt w = .ok w' → J w')
    (h4 : ∀ dt w, J w → E'.integrate dt (f w) = (E.integrate dt w).map f) (h4' : ∀ dt w w', J w → E.integrate dt w = .ok w' → I w')
    (tl : List ℝ) (obs : Observers) :
    simulate E' (f w) tl obs = ((simulate E w tl obs).1.map (seenAs f), (simulate E w tl obs).2.map fun x => (f x.1, x.2)) := by
  cases tl with
  | nil => rfl
  | cons t0 tl =>
    unfold simulate
    refine call_map f f [] .worldInit _ _ _ _ h0 fun tr w1 e1 => ?_
    have e : (tr.map (seenAs f) ++ (List.range obs.first).map fun i => Ev.obsInit i t0 (f w1) (t0 :: tl)) =
        (tr ++ (List.range obs.first).map fun i => Ev.obsInit i t0 w1 (t0 :: tl)).map (seenAs f) := by
      rw [List.map_append, List.map_map]; rfl
    simp only [e, loop_map f E E' I J h1 h1' h2 h2' h3 h3' h4 h4' obs.later tl _ w1 t0 (h0' w1 e1)]
    rcases hl : loop E obs.later tl (tr ++ (List.range obs.first).map fun i => Ev.obsInit i t0 w1 (t0 :: tl)) w1 t0 with ⟨tr', r⟩
    cases r with
    | error x => rfl
    | ok r => simp only [Except.map, List.map_append, List.map_map]; rfl

/-! ### one controller -/

open Classical in
lemma fold_range {α β : Type} (l : List α) (p : ℕ → Prop) (q : α → Prop) (F : β → ℕ → Except PyErr β) (G : β → α → Except PyErr β) (a : ℕ)
    (hp : ∀ r x, l[r]? = some x → (p (a + r) ↔ q x)) (hF : ∀ acc r x, l[r]? = some x → F acc (a + r) = G acc x) (acc : β) :
    ((List.range' a l.length).filter fun r => p r).foldlM F acc = (l.filter fun x => q x).foldlM G acc := by
  induction l generalizing a acc with
  | nil => rfl
  | cons x l ih =>
    have h1 : ∀ r y, l[r]? = some y → (p (a + 1 + r) ↔ q y) := fun r y h => by
      rw [Nat.add_assoc, Nat.add_comm 1]; exact hp (r + 1) y (by simpa using h)
    have h2 : ∀ acc r y, l[r]? = some y → F acc (a + 1 + r) = G acc y := fun acc r y h => by
      rw [Nat.add_assoc, Nat.add_comm 1]; exact hF acc (r + 1) y (by simpa using h)
    have hx := hp 0 x rfl
    rw [Nat.add_zero] at hx
    rw [List.length_cons, List.range'_succ]
    by_cases hq : q x
    · rw [List.filter_cons_of_pos (by simpa using hx.mpr hq), List.filter_cons_of_pos (by simpa using hq), List.foldlM_cons, List.foldlM_cons]
      have := hF acc 0 x rfl
      rw [Nat.add_zero] at this
      rw [this]
      refine congrArg _ (funext fun b => ?_)
      exact ih (a + 1) h1 h2 b
    · rw [List.filter_cons_of_neg (by simpa using fun h => hq (hx.mp h)), List.filter_cons_of_neg (by simpa using hq)]
      exact ih (a + 1) h1 h2 acc

/-- the list of the bodies that have mass -/
def ranks (bs : List Body) : List ℕ := by
  classical exact (List.range bs.length).filter fun r => ∃ b, bs[r]? = some b ∧ weightNorm b.mass ≠ 0

lemma init_weight {σ : Type} (up : Vec3) (w : MWorld n σ) (γ : ℝ) (c : Option WInit) :
    Ctl.init up w (.weight γ c) = .weight γ (some ⟨ranks w.tree.bodies, gravityTwist γ up⟩) := by
  unfold Ctl.init ranks
  congr!

lemma update_weight {σ : Type} (w : MWorld n σ) (dt γ : ℝ) (c : WInit) : Ctl.update w dt (.weight γ (some c)) =
    ((c.bodies.foldlM (init := (0 : Fin n → ℝ)) fun acc r =>
      match w.tree.bodies[r]?, w.dyn[r]? with
      | some b, some x => do
        let A ← iadjoint x.2.pose
        return acc + x.2.jacᵀ *ᵥ (b.mass *ᵥ (A *ᵥ c.dtwist))
      | _, _ => .error .typeError) >>= fun g => Except.ok (⟨g, 0⟩ : CtrlVal n)) := rfl

/-- with up to date constants, a `WeightController` gives the weight of all bodies -/
lemma weight_fresh {σ : Type} (up : Vec3) (w : MWorld n σ) (dt γ γ' : ℝ) (hd : w.dyn.map (·.1) = w.tree.bodies) :
    Ctl.update w dt (.weight γ' (some ⟨ranks w.tree.bodies, gravityTwist γ up⟩)) = weightUpdateE γ up w.dyn := by
  classical
  rw [update_weight]
  unfold weightUpdateE ranks
  have hl : w.tree.bodies.length = w.dyn.length := by rw [← hd, List.length_map]
  have hb : ∀ (r : ℕ) x, w.dyn[r]? = some x → w.tree.bodies[r]? = some x.1 := by
    intro r x h
    rw [← hd, List.getElem?_map, h]; rfl
  have := fold_range (β := Fin n → ℝ) w.dyn (fun r => ∃ b, w.tree.bodies[r]? = some b ∧ weightNorm b.mass ≠ 0) (fun x => weightNorm x.1.mass ≠ 0)
    (fun acc r => match w.tree.bodies[r]?, w.dyn[r]? with
      | some b, some x => do
        let A ← iadjoint x.2.pose
        return acc + x.2.jacᵀ *ᵥ (b.mass *ᵥ (A *ᵥ gravityTwist γ up))
      | _, _ => .error .typeError)
    (fun acc x => do
      let A ← iadjoint x.2.pose
      return acc + x.2.jacᵀ *ᵥ (x.1.mass *ᵥ (A *ᵥ gravityTwist γ up))) 0
    (fun r x h => by
      rw [Nat.zero_add, hb r x h]
      constructor
      · rintro ⟨b, h1, h2⟩; obtain rfl := Option.some.inj h1; exact h2
      · intro h2; exact ⟨_, rfl, h2⟩)
    (fun acc r x h => by rw [Nat.zero_add, hb r x h, h]) 0
  rw [hl, List.range_eq_range']
  refine congrArg (fun x : Except PyErr (Fin n → ℝ) => x >>= fun g => Except.ok (⟨g, 0⟩ : CtrlVal n)) (Eq.trans ?_ (this.trans ?_)) <;> congr!

/-- the rest of a pd controller -/
lemma pd_fresh {σ : Type} (w : MWorld n σ) (dt : ℝ) (js : List ℕ) (g : PDGains) :
    Ctl.update w dt (.pd js g (some (pdDofMap (pdRead w js)))) = pdUpdate n g (pdRead w js) dt := rfl

/-- the constants of a `WeightController` computed when the bodies were `before` -/
lemma weight_kept {σ : Type} (up : Vec3) (w : MWorld n σ) (dt γ γ' : ℝ) (before : List Body) (hd : w.dyn.map (·.1) = w.tree.bodies)
    (hb : before.length = w.tree.bodies.length) (hr : ∀ x ∈ w.dyn, IsRigid x.2.pose) :
    Ctl.update w dt (.weight γ' (some ⟨ranks before, gravityTwist γ up⟩)) = .ok ⟨weightOf γ up before w.dyn, 0⟩ := by
  classical
  have key : ∀ (l : List (Body × Body × BodyDyn n)) (acc : Fin n → ℝ), (∀ x ∈ l, IsRigid x.2.2.pose) →
      ((l.filter fun x => HasMass x.1).foldlM (init := acc) fun acc x => do
        let A ← iadjoint x.2.2.pose
        return acc + x.2.2.jacᵀ *ᵥ (x.2.1.mass *ᵥ (A *ᵥ gravityTwist γ up)) : Except PyErr (Fin n → ℝ)) =
      .ok (acc + (l.map fun x => if HasMass x.1 then x.2.2.jacᵀ *ᵥ (x.2.1.mass *ᵥ (iadjointBody x.2.2.pose *ᵥ tw 0 (γ • up))) else 0).sum) := by
    intro l
    induction l with
    | nil => intro acc _; simp; rfl
    | cons x l ih =>
      intro acc hl
      have ih := fun acc => ih acc fun y hy => hl y (List.mem_cons_of_mem _ hy)
      by_cases hx : HasMass x.1
      · rw [List.filter_cons_of_pos (by simpa using hx), List.foldlM_cons, iadjoint_ok (hl x List.mem_cons_self), List.map_cons, List.sum_cons,
          if_pos hx, ← add_assoc]
        exact ih _
      · rw [List.filter_cons_of_neg (by simpa using hx), List.map_cons, List.sum_cons, if_neg hx, zero_add]
        exact ih acc
  have hl : w.tree.bodies.length = w.dyn.length := by rw [← hd, List.length_map]
  have hb' : ∀ (r : ℕ) x, w.dyn[r]? = some x → w.tree.bodies[r]? = some x.1 := by
    intro r x h
    rw [← hd, List.getElem?_map, h]; rfl
  have hlen : (before.zip w.dyn).length = before.length := by rw [List.length_zip, hb, hl, min_self]
  have := fold_range (β := Fin n → ℝ) (before.zip w.dyn) (fun r => ∃ b, before[r]? = some b ∧ weightNorm b.mass ≠ 0) (fun x => HasMass x.1)
    (fun acc r => match w.tree.bodies[r]?, w.dyn[r]? with
      | some b, some x => do
        let A ← iadjoint x.2.pose
        return acc + x.2.jacᵀ *ᵥ (b.mass *ᵥ (A *ᵥ gravityTwist γ up))
      | _, _ => .error .typeError)
    (fun acc x => do
      let A ← iadjoint x.2.2.pose
      return acc + x.2.2.jacᵀ *ᵥ (x.2.1.mass *ᵥ (A *ᵥ gravityTwist γ up))) 0
    (fun r x h => by
      obtain ⟨h1, h2⟩ := List.getElem?_zip_eq_some.mp h
      rw [Nat.zero_add, h1]
      constructor
      · rintro ⟨b, h1, h2⟩; obtain rfl := Option.some.inj h1; exact weightNorm_ne_zero.mp h2
      · intro h2; exact ⟨_, rfl, weightNorm_ne_zero.mpr h2⟩)
    (fun acc r x h => by
      obtain ⟨h1, h2⟩ := List.getElem?_zip_eq_some.mp h
      rw [Nat.zero_add, hb' r _ h2, h2]) 0
  have hk := key (before.zip w.dyn) 0 fun x hx => hr _ (List.of_mem_zip hx).2
  rw [zero_add] at hk
  rw [update_weight]
  unfold ranks weightOf
  rw [List.range_eq_range']
  rw [hlen] at this
  refine (congrArg (fun x : Except PyErr (Fin n → ℝ) => x >>= fun g => Except.ok (⟨g, 0⟩ : CtrlVal n)) (Eq.trans ?_ (this.trans hk))).trans ?_
  · congr!
  · simp only [bind, Except.bind]

/-! ### a run -/

lemma settings_init {σ : Type} (up : Vec3) (w : MWorld n σ) (c : Ctl) : (Ctl.init up w c).settings = c.settings := by
  cases c <;> rfl

/-- the constants are up to date -/
structure UpToDate (up : Vec3) (cs : List LibCtrl) (w : MWorld n (List Ctl)) : Prop where
  settings : w.mem.map Ctl.settings = cs
  fresh : ∀ c ∈ w.mem, Ctl.init up w c = c

/-- joints at the same places in the vectors of the world -/
abbrev SameDofs (l l' : MLink) : Prop := l'.start = l.start ∧ l'.pd.ndof = l.pd.ndof

lemma forall₂_none {α β : Type} {R : α → β → Prop} {l : List α} {l' : List β} (h : List.Forall₂ R l l') {i : ℕ} (hy : l'[i]? = none) : l[i]? = none := by
  rw [List.getElem?_eq_none_iff] at hy ⊢
  rw [h.length_eq]; exact hy

lemma map_congr {σ τ : Type} (w : MWorld n σ) (w' : MWorld n τ) (hl : List.Forall₂ SameDofs w.tree.links w'.tree.links) (js : List ℕ) :
    pdDofMap (pdRead w' js) = pdDofMap (pdRead w js) := by
  induction js with
  | nil => rfl
  | cons j js ih =>
    have e : ∀ {τ : Type} (v : MWorld n τ), pdDofMap (pdRead v (j :: js)) =
        (match (v.tree.links[j]? : Option MLink) with | some l => List.range' l.start l.pd.ndof | none => []) ++ pdDofMap (pdRead v js) := by
      intro τ v
      unfold pdRead pdDofMap
      cases h : (v.tree.links[j]? : Option MLink) with
      | none => rw [List.filterMap_cons_none (by rw [h]; rfl)]; rfl
      | some l => rw [List.filterMap_cons_some (by rw [h]; rfl)]; rfl
    rw [e, e, ih]
    cases h : (w'.tree.links[j]? : Option MLink) with
    | none => rw [forall₂_none hl h]
    | some l' =>
      obtain ⟨l, h1, h2, h3⟩ := forall₂_get? hl h
      rw [h1]
      simp only [h2, h3]

lemma init_congr {σ τ : Type} (up : Vec3) (w : MWorld n σ) (w' : MWorld n τ) (hb : w'.tree.bodies = w.tree.bodies)
    (hl : List.Forall₂ SameDofs w.tree.links w'.tree.links) (c : Ctl) : Ctl.init up w' c = Ctl.init up w c := by
  cases c with
  | weight γ c => rw [init_weight, init_weight, hb]
  | pd js g m => simp only [Ctl.init, map_congr w w' hl js]

lemma sameDofs_refl (ls : List MLink) : List.Forall₂ SameDofs ls ls := by
  induction ls with
  | nil => exact .nil
  | cons l ls ih => exact .cons ⟨rfl, rfl⟩ ih

lemma sameDofs_trans {a b c : List MLink} (h1 : List.Forall₂ SameDofs a b) (h2 : List.Forall₂ SameDofs b c) : List.Forall₂ SameDofs a c := by
  induction h1 generalizing c with
  | nil => exact h2
  | cons h _ ih =>
    cases h2 with
    | cons h3 h4 => exact .cons ⟨h3.1.trans h.1, h3.2.trans h.2⟩ (ih h4)

lemma advance_sameDofs (v : Fin n → ℝ) (dt : ℝ) (ls : List MLink) : List.Forall₂ SameDofs ls (ls.map (advance v dt)) := by
  induction ls with
  | nil => exact .nil
  | cons l ls ih =>
    refine .cons ⟨rfl, ?_⟩ ih
    unfold advance MLink.pd PDJoint.ndof
    cases l.att <;> simp [JAttr.integrate]

/-- what does not change between two calls of `init`: the sizes of the tree, the dofs -/
lemma integrate_tree {σ : Type} {dt : ℝ} {w w' : MWorld n σ} (h : Mech.integrate dt w = .ok w') :
    w'.tree.bodies = w.tree.bodies ∧ List.Forall₂ SameDofs w.tree.links w'.tree.links ∧ w'.mem = w.mem := by
  unfold Mech.integrate at h
  split at h
  · cases h
  · obtain rfl := Except.ok.inj h
    refine ⟨bodies_map _ _, ?_, rfl⟩
    simp only [links_map]
    exact advance_sameDofs _ _ _

lemma dynamic_tree {σ : Type} {w w' : MWorld n σ} (h : Mech.dynamic w = .ok w') :
    w'.tree = w.tree ∧ w'.mem = w.mem ∧ w'.dyn.map (·.1) = w'.tree.bodies := by
  unfold Mech.dynamic at h
  split at h
  · cases h
  · rename_i d hd
    obtain rfl := Except.ok.inj h
    refine ⟨rfl, rfl, ?_⟩
    simp only
    rw [updateDynamicE_eq hd, dyn_bodies, bodies_map]

lemma constraints_tree {σ : Type} {P : Plug n σ} {dt : ℝ} {w w' : MWorld n σ} (h : Mech.constraints P dt w = .ok w') :
    w'.tree = w.tree ∧ w'.mem = w.mem ∧ w'.dyn = w.dyn := by
  unfold Mech.constraints at h
  simp only at h
  split at h
  · cases h
  · obtain rfl := Except.ok.inj h
    exact ⟨rfl, rfl, rfl⟩

lemma controllers_tree {look : MWorld n Unit → Con n → Con n} {dt : ℝ} {w w' : MWorld n (List Ctl)}
    (h : Mech.controllers (hookPlug n look) dt w = .ok w') : w'.tree = w.tree ∧ w'.mem = w.mem ∧ w'.dyn = w.dyn := by
  unfold Mech.controllers hookPlug at h
  simp only at h
  split at h
  · cases h
  · rename_i m vals hm
    split at h
    · cases h
    · obtain rfl := Except.ok.inj h
      refine ⟨rfl, ?_, rfl⟩
      split at hm
      · cases hm
      · exact (congrArg Prod.fst (Except.ok.inj hm)).symm

lemma upToDate_mono {up : Vec3} {cs : List LibCtrl} {w w' : MWorld n (List Ctl)} (h : UpToDate up cs w) (hb : w'.tree.bodies = w.tree.bodies)
    (hl : List.Forall₂ SameDofs w.tree.links w'.tree.links) (hm : w'.mem = w.mem) : UpToDate up cs w' :=
  ⟨by rw [hm]; exact h.settings, fun c hc => by rw [init_congr up w w' hb hl]; exact h.fresh c (hm ▸ hc)⟩

lemma update_fresh {up : Vec3} {w : MWorld n (List Ctl)} {c : Ctl} (h : Ctl.init up w c = c) (hd : w.dyn.map (·.1) = w.tree.bodies) (dt : ℝ) :
    Ctl.update w dt c = LibCtrl.update up w.forget dt c.settings := by
  rw [← h]
  cases c with
  | weight γ c => rw [init_weight, weight_fresh up w dt γ γ hd]; rfl
  | pd js g m => rfl

lemma askAll_fresh {up : Vec3} {w : MWorld n (List Ctl)} (cs : List Ctl) (h : ∀ c ∈ cs, Ctl.init up w c = c)
    (hd : w.dyn.map (·.1) = w.tree.bodies) (dt : ℝ) : Ctl.askAll w dt cs = askAll up w.forget dt (cs.map Ctl.settings) := by
  induction cs with
  | nil => rfl
  | cons c cs ih =>
    unfold Ctl.askAll
    rw [List.map_cons, update_fresh (h c List.mem_cons_self) hd, ih fun d hd => h d (List.mem_cons_of_mem _ hd)]
    rfl

/-- C129, simulations.  Whatever the controllers have in their private attributes (constants of an old `init`, or none), a call of
`simulate` makes the same calls, shows the same worlds to the observers and ends in the same state, or with the same exception, as if
the controllers read their settings, the tree and its numbering at each step. -/
theorem C129_run (up : Vec3) (look : MWorld n Unit → Con n → Con n) (w : MWorld n (List Ctl)) (tl : List ℝ) (obs : Observers) :
    simulate (engine (lookPlug n up (w.mem.map Ctl.settings) look)) w.forget tl obs =
      ((simulate (hookEngine up look) w tl obs).1.map (seenAs MWorld.forget),
        (simulate (hookEngine up look) w tl obs).2.map fun x => (x.1.forget, x.2)) := by
  refine simulate_map MWorld.forget (hookEngine up look) _ (UpToDate up (w.mem.map Ctl.settings))
    (fun v => UpToDate up (w.mem.map Ctl.settings) v ∧ v.dyn.map (·.1) = v.tree.bodies) w rfl ?_ ?_ ?_ ?_ ?_ ?_ ?_ ?_ ?_ tl obs
  · intro v hv
    obtain rfl := Except.ok.inj (show Except.ok _ = Except.ok v from hv)
    refine ⟨?_, ?_⟩
    · simp only [List.map_map]
      exact List.map_congr_left fun c _ => settings_init _ _ c
    · intro c hc
      obtain ⟨d, _, rfl⟩ := List.mem_map.mp hc
      cases d <;> rfl
  · intro v hv
    show Mech.dynamic v.forget = (Mech.dynamic v).map MWorld.forget
    unfold Mech.dynamic
    simp only [MWorld.forget]
    cases updateDynamicE (groundDyn n) (v.tree.map MLink.link id) <;> rfl
  · intro v v' hv h
    obtain ⟨h1, h2, h3⟩ := dynamic_tree h
    exact ⟨upToDate_mono hv (by rw [h1]) (by rw [h1]; exact sameDofs_refl _) h2, h3⟩
  · intro dt v hv
    show Mech.controllers (lookPlug n up _ look) dt v.forget = (Mech.controllers (hookPlug n look) dt v).map MWorld.forget
    unfold Mech.controllers hookPlug lookPlug libPlug
    simp only
    rw [askAll_fresh v.mem hv.1.fresh hv.2 dt, hv.1.settings]
    cases askAll up v.forget dt (w.mem.map Ctl.settings) with
    | error e => rfl
    | ok vs =>
      simp only [MWorld.forget]
      cases updateControllers v.mass v.viscosity v.nleffects dt vs <;> rfl
  · intro dt v v' hv h
    obtain ⟨h1, h2, h3⟩ := controllers_tree h
    exact ⟨upToDate_mono hv.1 (by rw [h1]) (by rw [h1]; exact sameDofs_refl _) h2, by rw [h3, h1]; exact hv.2⟩
  · intro dt v hv
    show Mech.constraints (lookPlug n up _ look) dt v.forget = (Mech.constraints (hookPlug n look) dt v).map MWorld.forget
    unfold Mech.constraints hookPlug lookPlug libPlug
    simp only [MWorld.forget]
    split <;> rename_i h <;> simp only [h] <;> rfl
  · intro dt v v' hv h
    obtain ⟨h1, h2, h3⟩ := constraints_tree h
    exact ⟨upToDate_mono hv.1 (by rw [h1]) (by rw [h1]; exact sameDofs_refl _) h2, by rw [h3, h1]; exact hv.2⟩
  · intro dt v hv
    show Mech.integrate dt v.forget = (Mech.integrate dt v).map MWorld.forget
    unfold Mech.integrate
    simp only [MWorld.forget]
    cases integrateGvel v.mass v.ctrl.admittance v.gvel v.ctrl.gforce dt <;> rfl
  · intro dt v v' hv h
    obtain ⟨h1, h2, h3⟩ := integrate_tree h
    exact upToDate_mono hv.1 h1 h2 h3

/-! ### by hand -/

/-- the same controller, with the constants of the same `init`; the settings may differ -/
inductive SameCache : Ctl → Ctl → Prop
  | weight (γ γ' : ℝ) (c : Option WInit) : SameCache (.weight γ c) (.weight γ' c)
  | pd (js : List ℕ) (g g' : PDGains) (m : Option (List ℕ)) : SameCache (.pd js g m) (.pd js g' m)

lemma SameCache.refl (c : Ctl) : SameCache c c := by
  cases c <;> constructor

/-- the world `w`, which comes from `w1` without calling `init` -/
structure Since (w1 w : MWorld n (List Ctl)) : Prop where
  size : w.tree.bodies.length = w1.tree.bodies.length
  dofs : List.Forall₂ SameDofs w1.tree.links w.tree.links
  old : ∀ (i : ℕ) (c : Ctl), w1.mem[i]? = some c → ∃ d, w.mem[i]? = some d ∧ SameCache c d
  new : ∀ (i : ℕ) (d : Ctl), w1.mem.length ≤ i → w.mem[i]? = some d → ∃ s, d = Ctl.new s

lemma Since.of {w1 w w' : MWorld n (List Ctl)} (h : Since w1 w) (hb : w'.tree.bodies.length = w.tree.bodies.length)
    (hl : List.Forall₂ SameDofs w.tree.links w'.tree.links) (hm : w'.mem = w.mem) : Since w1 w' :=
  ⟨hb.trans h.size, sameDofs_trans h.dofs hl, by rw [hm]; exact h.old, by rw [hm]; exact h.new⟩

lemma editTree_rel (f : ℕ → MLink → MLink) (g : ℕ → Body → Body) (hf : ∀ a l, SameDofs l (f a l)) (F : Forest MLink Body) (a : ℕ) :
    (editTree f g a F).1.bodies.length = F.bodies.length ∧ List.Forall₂ SameDofs F.links (editTree f g a F).1.links := by
  induction F generalizing a with
  | nil => exact ⟨rfl, .nil⟩
  | cons l b ch sib h1 h2 =>
    simp only [editTree, Forest.bodies, Forest.links, List.length_append, List.length_cons]
    refine ⟨by rw [(h1 _).1, (h2 _).1], ?_⟩
    exact List.rel_append (.cons (hf a l) (h1 _).2) (h2 _).2

lemma Since.modify {w1 w : MWorld n (List Ctl)} (h : Since w1 w) (i : ℕ) (f : Ctl → Ctl) (hf : ∀ c, SameCache c (f c))
    (hn : ∀ s, ∃ s', f (Ctl.new s) = Ctl.new s') : Since w1 { w with mem := w.mem.modify i f } := by
  refine ⟨h.size, h.dofs, fun k c hc => ?_, fun k d hk hd => ?_⟩
  · obtain ⟨d, h1, h2⟩ := h.old k c hc
    simp only [List.getElem?_modify, h1]
    by_cases e : i = k
    · refine ⟨f d, by simp [e], ?_⟩
      have := hf d
      cases h2 <;> cases hfd : f _ <;> rw [hfd] at this <;> cases this <;> constructor
    · exact ⟨d, by simp [e], h2⟩
  · simp only [List.getElem?_modify] at hd
    cases hw : w.mem[k]? with
    | none => rw [hw] at hd; simp at hd
    | some c =>
      obtain ⟨s, rfl⟩ := h.new k c hk hw
      rw [hw] at hd
      by_cases e : i = k
      · simp only [e, if_true, Option.map_some] at hd
        obtain ⟨s', hs'⟩ := hn s
        exact ⟨s', by rw [← hs']; exact (Option.some.inj hd).symm⟩
      · simp only [e, if_false, Option.map_some] at hd
        exact ⟨s, (Option.some.inj hd).symm⟩

lemma since_step {up : Vec3} {look : MWorld n Unit → Con n → Con n} {w1 w w' : MWorld n (List Ctl)} {o : HandOp} (ho : o ≠ .init) (h : Since w1 w)
    (hr : o.run up look w = .ok w') : Since w1 w' := by
  classical
  cases o with
  | init => exact absurd rfl ho
  | dynamic =>
    obtain ⟨h1, h2, _⟩ := dynamic_tree (show Mech.dynamic w = .ok w' from hr)
    exact h.of (by rw [h1]) (by rw [h1]; exact sameDofs_refl _) h2
  | controllers dt =>
    simp only [HandOp.run] at hr
    split_ifs at hr
    obtain ⟨h1, h2, _⟩ := controllers_tree hr
    exact h.of (by rw [h1]) (by rw [h1]; exact sameDofs_refl _) h2
  | constraints dt =>
    obtain ⟨h1, h2, _⟩ := constraints_tree (show Mech.constraints (hookPlug n look) dt w = .ok w' from hr)
    exact h.of (by rw [h1]) (by rw [h1]; exact sameDofs_refl _) h2
  | integrate dt =>
    simp only [HandOp.run] at hr
    split_ifs at hr
    obtain ⟨h1, h2, h3⟩ := integrate_tree hr
    exact h.of (by rw [h1]) h2 h3
  | setGravity i γ =>
    obtain rfl := Except.ok.inj hr
    refine h.modify i _ (fun c => ?_) fun s => ?_
    · cases c <;> constructor
    · cases s with
      | weight γ0 => exact ⟨.weight γ, rfl⟩
      | pd js g => exact ⟨.pd js g, rfl⟩
  | setGains i g =>
    obtain rfl := Except.ok.inj hr
    refine h.modify i _ (fun c => ?_) fun s => ?_
    · cases c <;> constructor
    · cases s with
      | weight γ0 => exact ⟨.weight γ0, rfl⟩
      | pd js g0 => exact ⟨.pd js g, rfl⟩
  | setMass r M =>
    obtain rfl := Except.ok.inj hr
    have := editTree_rel (fun _ l => l) (fun a b => if a = r then { b with mass := M } else b) (fun _ l => ⟨rfl, rfl⟩) w.tree 0
    exact h.of this.1 this.2 rfl
  | setPos r q H =>
    obtain rfl := Except.ok.inj hr
    have := editTree_rel (fun a l => if a = r then { l with att := l.att.place q H } else l) (fun _ b => b) (fun a l => by
      split_ifs
      · refine ⟨rfl, ?_⟩
        unfold MLink.pd PDJoint.ndof
        cases l.att <;> simp [JAttr.place]
      · exact ⟨rfl, rfl⟩) w.tree 0
    exact h.of this.1 this.2 rfl
  | register c =>
    obtain rfl := Except.ok.inj hr
    refine ⟨h.size, h.dofs, fun k d hd => ?_, fun k d hk hd => ?_⟩
    · obtain ⟨e, h1, h2⟩ := h.old k d hd
      exact ⟨e, by simp only; rw [List.getElem?_append_left (List.getElem?_eq_some_iff.mp h1).1, h1], h2⟩
    · simp only [List.getElem?_append] at hd
      split_ifs at hd with hlt
      · exact h.new k d hk hd
      · refine ⟨c, ?_⟩
        have := List.mem_of_getElem? hd
        simpa using this

lemma since_run {up : Vec3} {look : MWorld n Unit → Con n → Con n} {os : List HandOp} {w1 w w' : MWorld n (List Ctl)} (ho : NoInit os) (h : Since w1 w)
    (hr : handRun up look os w = .ok w') : Since w1 w' := by
  induction os generalizing w with
  | nil => obtain rfl := Except.ok.inj hr; exact h
  | cons o os ih =>
    unfold NoInit at ho
    simp only [List.mem_cons, not_or] at ho
    unfold handRun at hr
    split at hr
    · cases hr
    · rename_i v hv
      exact ih ho.2 (since_step (Ne.symm ho.1) h hv) hr

/-- C129, by hand.  In a world driven by any operations after a `world.init()` (that gave `w1`), none of them another `init`, and
then brought up to date by `update_dynamic`:
* a `WeightController` registered before gives the weight of the bodies which had mass at the `init`, for the value its attribute `gravity` had
  at the `init`, with the present masses, poses and jacobians;
* a `ProportionalDerivativeController` registered before uses its present gains, and the present positions of its joints;
* a controller registered since raises `TypeError`, and so does `update_controllers` (or a controller before it raises). -/
theorem C129_hand (up : Vec3) (look : MWorld n Unit → Con n → Con n) {os : List HandOp} (ho : NoInit os) {w0 w1 w2 w3 : MWorld n (List Ctl)}
    (h1 : hookInit up w0 = .ok w1) (h2 : handRun up look os w1 = .ok w2) (h3 : Mech.dynamic w2 = .ok w3) (dt : ℝ) :
    (∀ (i : ℕ) (γ : ℝ), (w1.mem.map Ctl.settings)[i]? = some (.weight γ) → (∀ x ∈ w3.dyn, IsRigid x.2.pose) →
      (w3.mem[i]?).map (Ctl.update w3 dt) = some (.ok ⟨weightOf γ up w1.tree.bodies w3.dyn, 0⟩)) ∧
    (∀ (i : ℕ) (js : List ℕ) (g : PDGains), (w1.mem.map Ctl.settings)[i]? = some (.pd js g) →
      ∃ g', (w3.mem.map Ctl.settings)[i]? = some (.pd js g') ∧ (w3.mem[i]?).map (Ctl.update w3 dt) = some (pdUpdate n g' (pdRead w3 js) dt)) ∧
    (∀ (i : ℕ) (c : Ctl), w1.mem.length ≤ i → w3.mem[i]? = some c → Ctl.update w3 dt c = .error .typeError) ∧
    (w1.mem.length < w3.mem.length → ∃ e, Mech.controllers (hookPlug n look) dt w3 = .error e) := by
  have hs0 : Since w1 w1 := ⟨rfl, sameDofs_refl _, fun i c h => ⟨c, h, .refl c⟩, fun i d hi hd => by
    rw [List.getElem?_eq_none hi] at hd; cases hd⟩
  have hs2 := since_run ho hs0 h2
  obtain ⟨e1, e2, e3⟩ := dynamic_tree h3
  have hs := hs2.of (w' := w3) (by rw [e1]) (by rw [e1]; exact sameDofs_refl _) e2
  obtain ⟨v, hv⟩ : ∃ v : MWorld n (List Ctl), w1 = { v with mem := v.mem.map (Ctl.init up v) } := ⟨_, (Except.ok.inj h1).symm⟩
  have hnew : ∀ (i : ℕ) (c : Ctl), w1.mem.length ≤ i → w3.mem[i]? = some c → Ctl.update w3 dt c = .error .typeError := by
    intro i c hi hc
    obtain ⟨s, rfl⟩ := hs.new i c hi hc
    cases s <;> rfl
  refine ⟨fun i γ hi hr => ?_, fun i js g hi => ?_, hnew, fun hlt => ?_⟩
  · obtain ⟨c, hc, hcs⟩ : ∃ c, w1.mem[i]? = some c ∧ c.settings = .weight γ := by
      rw [List.getElem?_map] at hi
      simpa using hi
    obtain ⟨d, hd, hcd⟩ := hs.old i c hc
    have hc' : ∃ c0, c = Ctl.init up v c0 := by
      rw [hv] at hc
      simp only [List.getElem?_map, Option.map_eq_some_iff] at hc
      obtain ⟨c0, _, h⟩ := hc
      exact ⟨c0, h.symm⟩
    obtain ⟨c0, rfl⟩ := hc'
    cases c0 with
    | pd js g m => cases hcs
    | weight γ0 k =>
      obtain rfl : γ0 = γ := by cases hcs; rfl
      rw [init_weight] at hcd
      cases hcd with
      | weight _ γ' _ =>
        rw [hd]
        simp only [Option.map_some]
        have ev : v.tree.bodies = w1.tree.bodies := by rw [hv]
        rw [ev, weight_kept up w3 dt γ0 γ' w1.tree.bodies e3 hs.size.symm hr]
  · obtain ⟨c, hc, hcs⟩ : ∃ c, w1.mem[i]? = some c ∧ c.settings = .pd js g := by
      rw [List.getElem?_map] at hi
      simpa using hi
    obtain ⟨d, hd, hcd⟩ := hs.old i c hc
    have hc' : ∃ c0, c = Ctl.init up v c0 := by
      rw [hv] at hc
      simp only [List.getElem?_map, Option.map_eq_some_iff] at hc
      obtain ⟨c0, _, h⟩ := hc
      exact ⟨c0, h.symm⟩
    obtain ⟨c0, rfl⟩ := hc'
    cases c0 with
    | weight γ0 k => cases hcs
    | pd js0 g0 m =>
      obtain ⟨rfl, rfl⟩ : js0 = js ∧ g0 = g := by cases hcs; exact ⟨rfl, rfl⟩
      simp only [Ctl.init] at hcd
      cases hcd with
      | pd _ _ g' _ =>
        have ev : pdDofMap (pdRead v js0) = pdDofMap (pdRead w3 js0) := by
          have : pdRead v js0 = pdRead w1 js0 := by rw [hv]; rfl
          rw [this]
          exact (map_congr w1 w3 hs.dofs js0).symm
        refine ⟨g', by rw [List.getElem?_map, hd]; rfl, ?_⟩
        rw [hd]
        simp only [Option.map_some]
        rw [ev, pd_fresh]
  · have hc : ∃ c ∈ w3.mem, Ctl.update w3 dt c = .error .typeError :=
      ⟨w3.mem[w1.mem.length], List.getElem_mem hlt, hnew _ _ le_rfl (List.getElem?_eq_getElem hlt)⟩
    have key : ∀ l : List Ctl, (∃ c ∈ l, Ctl.update w3 dt c = .error .typeError) → ∃ e, Ctl.askAll w3 dt l = .error e := by
      intro l
      induction l with
      | nil => rintro ⟨c, h, _⟩; cases h
      | cons c l ih =>
        rintro ⟨d, hd, he⟩
        unfold Ctl.askAll
        cases hu : Ctl.update w3 dt c with
        | error e => exact ⟨e, rfl⟩
        | ok x =>
          rcases List.mem_cons.mp hd with rfl | hd
          · rw [hu] at he; cases he
          · obtain ⟨e, h⟩ := ih ⟨d, hd, he⟩
            simp only [h]
            exact ⟨e, rfl⟩
    obtain ⟨e, h⟩ := key _ hc
    refine ⟨e, ?_⟩
    unfold Mech.controllers hookPlug
    simp only [h]

/-! ### what the assignments do -/

lemma edit_bodies (f : ℕ → MLink → MLink) (g : ℕ → Body → Body) (F : Forest MLink Body) (a : ℕ) :
    (editTree f g a F).1.bodies = F.bodies.mapIdx (fun i b => g (a + i) b) ∧ (editTree f g a F).2 = a + F.bodies.length := by
  induction F generalizing a with
  | nil => exact ⟨rfl, rfl⟩
  | cons l b ch sib h1 h2 =>
    simp only [editTree, Forest.bodies, List.cons_append, List.mapIdx_cons, List.mapIdx_append, List.length_append, List.length_cons]
    refine ⟨?_, ?_⟩
    · rw [(h1 _).1, (h2 _).1, (h1 _).2]
      simp only [Nat.add_zero, List.cons.injEq, true_and]
      congr 1
      · refine congrArg (fun f => List.mapIdx f _) (funext fun i => ?_)
        rw [Nat.add_assoc, Nat.add_comm 1]
      · refine congrArg (fun f => List.mapIdx f _) (funext fun i => funext fun b => ?_)
        exact congrArg (fun k => g k b) (by omega)
    · rw [(h2 _).2, (h1 _).2]; omega

lemma number_bodies (F : Forest MLink Body) (a : ℕ) : (number a F).1.bodies = F.bodies := by
  induction F generalizing a with
  | nil => rfl
  | cons l b ch sib h1 h2 => simp only [number, Forest.bodies, h1, h2]

lemma settle_step {up : Vec3} {look : MWorld n Unit → Con n → Con n} {w w' : MWorld n (List Ctl)} {o : HandOp} (h : o.run up look w = .ok w') :
    w'.mem.map Ctl.settings = settle (w.mem.map Ctl.settings) o ∧ w'.tree.bodies.map (·.mass) = weigh (w.tree.bodies.map (·.mass)) o := by
  classical
  cases o with
  | init =>
    obtain rfl := Except.ok.inj (show Except.ok _ = Except.ok w' from h)
    refine ⟨?_, ?_⟩
    · simp only [List.map_map]
      exact List.map_congr_left fun c _ => settings_init _ _ c
    · simp only [number_bodies]; rfl
  | dynamic =>
    obtain ⟨h1, h2, _⟩ := dynamic_tree (show Mech.dynamic w = .ok w' from h)
    rw [h1, h2]; exact ⟨rfl, rfl⟩
  | controllers dt =>
    simp only [HandOp.run] at h
    split_ifs at h
    obtain ⟨h1, h2, _⟩ := controllers_tree h
    rw [h1, h2]; exact ⟨rfl, rfl⟩
  | constraints dt =>
    obtain ⟨h1, h2, _⟩ := constraints_tree (show Mech.constraints (hookPlug n look) dt w = .ok w' from h)
    rw [h1, h2]; exact ⟨rfl, rfl⟩
  | integrate dt =>
    simp only [HandOp.run] at h
    split_ifs at h
    obtain ⟨h1, h2, h3⟩ := integrate_tree h
    rw [h1, h3]; exact ⟨rfl, rfl⟩
  | setGravity i γ =>
    obtain rfl := Except.ok.inj h
    refine ⟨?_, rfl⟩
    simp only [settle]
    apply List.ext_getElem?
    intro k
    cases hi : w.mem[i]? with
    | none =>
      simp only [List.getElem?_map, hi, Option.map_none, List.getElem?_modify]
      cases hk : w.mem[k]? with
      | none => rfl
      | some c =>
        have : i ≠ k := by rintro rfl; rw [hi] at hk; cases hk
        simp [this]
    | some c =>
      cases c with
      | weight γ0 c =>
        simp only [List.getElem?_map, hi, Option.map_some, Ctl.settings, List.getElem?_modify, List.getElem?_set, List.length_map]
        by_cases e : i = k
        · subst e
          obtain ⟨hlt, he⟩ := List.getElem?_eq_some_iff.mp hi
          simp [hlt, he, Ctl.setGravity, Ctl.settings]
        · simp [e]
      | pd js g m =>
        simp only [List.getElem?_map, hi, Option.map_some, Ctl.settings, List.getElem?_modify]
        by_cases e : i = k
        · subst e; simp [hi, Ctl.setGravity]
        · simp [e]
  | setGains i g =>
    obtain rfl := Except.ok.inj h
    refine ⟨?_, rfl⟩
    simp only [settle]
    apply List.ext_getElem?
    intro k
    cases hi : w.mem[i]? with
    | none =>
      simp only [List.getElem?_map, hi, Option.map_none, List.getElem?_modify]
      cases hk : w.mem[k]? with
      | none => rfl
      | some c =>
        have : i ≠ k := by rintro rfl; rw [hi] at hk; cases hk
        simp [this]
    | some c =>
      cases c with
      | pd js g0 c =>
        simp only [List.getElem?_map, hi, Option.map_some, Ctl.settings, List.getElem?_modify, List.getElem?_set, List.length_map]
        by_cases e : i = k
        · subst e
          obtain ⟨hlt, he⟩ := List.getElem?_eq_some_iff.mp hi
          simp [hlt, he, Ctl.setGains, Ctl.settings]
        · simp [e]
      | weight γ m =>
        simp only [List.getElem?_map, hi, Option.map_some, Ctl.settings, List.getElem?_modify]
        by_cases e : i = k
        · subst e; simp [hi, Ctl.setGains]
        · simp [e]
  | setMass r M =>
    obtain rfl := Except.ok.inj h
    refine ⟨rfl, ?_⟩
    simp only [weigh, (edit_bodies _ _ _ _).1]
    apply List.ext_getElem?
    intro k
    simp only [List.getElem?_map, List.getElem?_mapIdx, List.getElem?_set, List.length_map, Nat.zero_add, Option.map_map]
    cases hk : w.tree.bodies[k]? with
    | none =>
      have := List.getElem?_eq_none_iff.mp hk
      by_cases e : r = k
      · subst e; simp; omega
      · simp [e]
    | some b =>
      have := (List.getElem?_eq_some_iff.mp hk).1
      by_cases e : k = r
      · subst e; simp [this]
      · simp [e, Ne.symm e]
  | setPos r q H =>
    obtain rfl := Except.ok.inj h
    refine ⟨rfl, ?_⟩
    simp only [(edit_bodies _ _ _ _).1]
    rw [show (List.mapIdx (fun _ b => b) w.tree.bodies) = w.tree.bodies from by
      apply List.ext_getElem?; intro k; simp [List.getElem?_mapIdx]]
    rfl
  | register c =>
    obtain rfl := Except.ok.inj h
    refine ⟨?_, rfl⟩
    simp only [List.map_append, List.map_cons, List.map_nil, settle]
    cases c <;> rfl

/-- C129, settings.  After any history, calls of `init` included, the settings of the controllers and the masses of the bodies are those
that the assignments of the script have made. -/
theorem C129_settings (up : Vec3) (look : MWorld n Unit → Con n → Con n) {os : List HandOp} {w w' : MWorld n (List Ctl)}
    (h : handRun up look os w = .ok w') :
    w'.mem.map Ctl.settings = os.foldl settle (w.mem.map Ctl.settings) ∧
      w'.tree.bodies.map (·.mass) = os.foldl weigh (w.tree.bodies.map (·.mass)) := by
  induction os generalizing w with
  | nil => obtain rfl := Except.ok.inj h; exact ⟨rfl, rfl⟩
  | cons o os ih =>
    unfold handRun at h
    split at h
    · cases h
    · rename_i v hv
      obtain ⟨h1, h2⟩ := settle_step hv
      rw [List.foldl_cons, List.foldl_cons, ← h1, ← h2]
      exact ih h

lemma edit_links (f : ℕ → MLink → MLink) (g : ℕ → Body → Body) (F : Forest MLink Body) (a : ℕ) :
    (editTree f g a F).1.links = F.links.mapIdx (fun i l => f (a + i) l) ∧ (editTree f g a F).2 = a + F.links.length := by
  induction F generalizing a with
  | nil => exact ⟨rfl, rfl⟩
  | cons l b ch sib h1 h2 =>
    simp only [editTree, Forest.links, List.cons_append, List.mapIdx_cons, List.mapIdx_append, List.length_append, List.length_cons]
    refine ⟨?_, ?_⟩
    · rw [(h1 _).1, (h2 _).1, (h1 _).2]
      simp only [Nat.add_zero, List.cons.injEq, true_and]
      congr 1
      · refine congrArg (fun f => List.mapIdx f _) (funext fun i => ?_)
        rw [Nat.add_assoc, Nat.add_comm 1]
      · refine congrArg (fun f => List.mapIdx f _) (funext fun i => funext fun b => ?_)
        exact congrArg (fun k => f k b) (by omega)
    · rw [(h2 _).2, (h1 _).2]; omega

/-- C129, positions.  Assigning the position of the linear joint of rank `r` changes this position, which a PD controller reads, and nothing
else: not the joint's velocity or dofs, not the other joints. -/
theorem C129_position (up : Vec3) (look : MWorld n Unit → Con n → Con n) {w w' : MWorld n (List Ctl)} {r : ℕ} {q : ℕ → ℝ} {H : Mat4}
    (h : (HandOp.setPos r q H).run up look w = .ok w') {k : LinKind} {q0 dq : Fin k.ndof → ℝ} {s : ℕ} {b0 b1 : Mat4}
    (hr : w.tree.links[r]? = some ⟨.lin k q0 dq, s, b0, b1⟩) :
    w'.tree.links = w.tree.links.set r ⟨.lin k (fun i => q i) dq, s, b0, b1⟩ ∧ w'.tree.bodies = w.tree.bodies ∧ w'.gvel = w.gvel ∧
      pdRead w' [r] = [⟨s, List.ofFn fun i : Fin k.ndof => q i⟩] := by
  classical
  have hw : w' = { w with tree := (editTree (fun a l => if a = r then { l with att := l.att.place q H } else l) (fun _ b => b) 0 w.tree).1 } := by
    simp only [HandOp.run] at h
    rw [← Except.ok.inj h]
  subst hw
  have hl : (editTree (fun a l => if a = r then { l with att := l.att.place q H } else l) (fun _ b => b) 0 w.tree).1.links =
      w.tree.links.set r ⟨.lin k (fun i => q i) dq, s, b0, b1⟩ := by
    rw [(edit_links _ _ _ _).1]
    apply List.ext_getElem?
    intro i
    simp only [List.getElem?_mapIdx, List.getElem?_set, Nat.zero_add]
    by_cases e : i = r
    · subst e
      have := (List.getElem?_eq_some_iff.mp hr).1
      simp only [hr, Option.map_some, if_true, this, JAttr.place]
    · have e' : r ≠ i := Ne.symm e
      simp [e, e']
  refine ⟨hl, ?_, rfl, ?_⟩
  · simp only [(edit_bodies _ _ _ _).1]
    apply List.ext_getElem?; intro k; simp [List.getElem?_mapIdx]
  · have := (List.getElem?_eq_some_iff.mp hr).1
    simp only [pdRead, hl, List.filterMap_cons, List.filterMap_nil, List.getElem?_set, if_true, this, Option.map_some]
    rfl

/-- C129, positions.  Assigning the pose of the free joint of rank `r` changes this pose, and nothing else: not the twist of the joint or its dofs, not the
other joints. -/
theorem C129_free (up : Vec3) (look : MWorld n Unit → Con n → Con n) {w w' : MWorld n (List Ctl)} {r : ℕ} {q : ℕ → ℝ} {H : Mat4}
    (h : (HandOp.setPos r q H).run up look w = .ok w') {H0 : Mat4} {T : Vec6} {s : ℕ} {b0 b1 : Mat4}
    (hr : w.tree.links[r]? = some ⟨.free H0 T, s, b0, b1⟩) :
    w'.tree.links = w.tree.links.set r ⟨.free H T, s, b0, b1⟩ ∧ w'.tree.bodies = w.tree.bodies ∧ w'.gvel = w.gvel := by
  classical
  have hw : w' = { w with tree := (editTree (fun a l => if a = r then { l with att := l.att.place q H } else l) (fun _ b => b) 0 w.tree).1 } := by
    simp only [HandOp.run] at h
    rw [← Except.ok.inj h]
  subst hw
  refine ⟨?_, ?_, rfl⟩
  · rw [(edit_links _ _ _ _).1]
    apply List.ext_getElem?
    intro i
    simp only [List.getElem?_mapIdx, List.getElem?_set, Nat.zero_add]
    by_cases e : i = r
    · subst e
      have := (List.getElem?_eq_some_iff.mp hr).1
      simp only [hr, Option.map_some, if_true, this, JAttr.place]
    · have e' : r ≠ i := Ne.symm e
      simp [e, e']
  · simp only [(edit_bodies _ _ _ _).1]
    apply List.ext_getElem?; intro k; simp [List.getElem?_mapIdx]

end
end Arboris
