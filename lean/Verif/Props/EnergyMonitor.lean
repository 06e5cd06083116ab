import Verif.Props.EnergyRun

/-!
# C132: what an `EnergyMonitor` logs during a simulation
-/

namespace Arboris
open Matrix Spec Mech Build Sim Turn

variable {n : ℕ}

/-- the times and states at which the observer number `i` is updated -/
def Spec.updatesOf {W : Type*} (i : ℕ) (tr : List (Ev W)) : List (ℝ × W) := tr.filterMap fun
  | .obsUpdate j _ t c => if j = i then some (t, c) else none
  | _ => none

lemma updates_append {W : Type*} (i : ℕ) (a b : List (Ev W)) : updatesOf i (a ++ b) = updatesOf i a ++ updatesOf i b := by
  simp [updatesOf, List.filterMap_append]

lemma updates_step {W : Type*} {i k : ℕ} (hi : i < k) (o : ℝ × ℝ × W) : updatesOf i (stepCalls k o) = [(o.1, o.2.2)] := by
  have h : ∀ k : ℕ, updatesOf i ((List.range k).map fun j => Ev.obsUpdate j o.2.1 o.1 o.2.2) = if i < k then [(o.1, o.2.2)] else [] := by
    intro k
    induction k with
    | zero => simp [updatesOf]
    | succ k ih =>
      rw [List.range_succ, List.map_append, updates_append, ih]
      by_cases h1 : i < k
      · have : ¬ k = i := by omega
        simp [updatesOf, h1, h1.trans (Nat.lt_succ_self k), this]
      · by_cases h2 : k = i
        · subst h2; simp [updatesOf]
        · have : ¬ i < k + 1 := by omega
          simp [updatesOf, h1, h2, this]
  rw [stepCalls, updates_append, updates_append, h, if_pos hi]
  simp [updatesOf]

lemma updates_run {W : Type*} {i k : ℕ} (hi : i < k) (t0 : ℝ) (w0 : W) (tl : List ℝ) (seen : List (ℝ × ℝ × W)) :
    updatesOf i (runCalls k t0 w0 tl seen) = seen.map fun o => (o.1, o.2.2) := by
  have h1 : updatesOf i ((List.range k).map fun j => Ev.obsInit j t0 w0 tl) = [] := by
    rw [updatesOf, List.filterMap_map]; simp [Function.comp_def]
  have h2 : updatesOf i ((List.range k).map fun j => (Ev.obsFinish j : Ev W)) = [] := by
    rw [updatesOf, List.filterMap_map]; simp [Function.comp_def]
  have h3 : updatesOf i (seen.flatMap (stepCalls k)) = seen.map fun o => (o.1, o.2.2) := by
    induction seen with
    | nil => rfl
    | cons o l ih => rw [List.flatMap_cons, updates_append, updates_step hi, ih]; rfl
  rw [runCalls, updates_append, updates_append, updates_append, h1, h2, h3]
  simp [updatesOf]

/-- the lists of an `EnergyMonitor` after its updates at the states `l` -/
noncomputable def monitored (com : List (Fin 4 → ℝ)) (up : Vec3) (log : EnergyLog) (l : List (ℝ × MWorld n Unit)) : EnergyLog :=
  l.foldl (fun log x => energyUpdate log com x.1 up x.2.gvel x.2.mass x.2.dyn) log

lemma monitored_lists {com : List (Fin 4 → ℝ)} {up : Vec3} {ec ep : ℝ × MWorld n Unit → ℝ} {l : List (ℝ × MWorld n Unit)}
    (h : ∀ x ∈ l, ∀ log : EnergyLog, energyUpdate log com x.1 up x.2.gvel x.2.mass x.2.dyn =
      ⟨log.time ++ [x.1], log.kinetic ++ [ec x], log.potential ++ [ep x], log.mechanical ++ [ec x + ep x]⟩) (log : EnergyLog) :
    monitored com up log l = ⟨log.time ++ l.map (·.1), log.kinetic ++ l.map ec, log.potential ++ l.map ep, log.mechanical ++ l.map fun x => ec x + ep x⟩ := by
  induction l generalizing log with
  | nil => simp [monitored]
  | cons x l ih =>
    have e : monitored com up log (x :: l) = monitored com up (energyUpdate log com x.1 up x.2.gvel x.2.mass x.2.dyn) l := rfl
    rw [e, h x List.mem_cons_self, ih fun y hy => h y (List.mem_cons_of_mem _ hy)]
    simp

lemma evolves_rigid {P : Plug n Unit} {tl : List ℝ} {w w' : MWorld n Unit} {seen : List (ℝ × ℝ × MWorld n Unit)} (h : Evolves P tl w seen w')
    (hr : ∀ l ∈ w.tree.links, RigidLink l ∧ NotFree l) : ∀ s ∈ seen, ∀ l ∈ s.2.2.tree.links, RigidLink l ∧ NotFree l := by
  induction h with
  | done t w => intro s hs; cases hs
  | step hs hrest ih =>
    rename_i t1 t2 ts w1 c1 w2 w3 seen'
    intro s hsm
    rcases List.mem_cons.mp hsm with rfl | hsm
    · obtain ⟨vals, F, hseen, -⟩ := hs.motion
      intro l hl
      rw [hseen.tree] at hl
      exact hr l hl
    · refine ih (fun l' hl' => ?_) s hsm
      obtain ⟨l, hl, hm⟩ := hs.tree.mem hl'
      have hn := hm.notFree (hr l hl).2
      exact ⟨hm.rigid (hr l hl).1 fun H T e => absurd e (hn H T), hn⟩

lemma evolves_times {P : Plug n Unit} {tl : List ℝ} {w w' : MWorld n Unit} {seen : List (ℝ × ℝ × MWorld n Unit)} (h : Evolves P tl w seen w') :
    seen.map (·.1) = tl.dropLast := by
  induction h with
  | done t w => rfl
  | step hs hrest ih =>
    rw [List.map_cons, ih]
    rfl

/-- an update logs the kinetic energy, and 9.81 times the heights -/
lemma monitor_update {up : Vec3} {m : Body → ℝ} {c : Body → Vec3} {I : Body → Mat3} {eig : Mat3 → Mat3} {v : MWorld n Unit}
    (hr : ∀ l ∈ v.tree.links, RigidLink l ∧ HasVel v.gvel l) (hI : ∀ b ∈ v.tree.bodies, IsRigidMass b.mass (m b) (c b) (I b))
    (hpd : ∀ b ∈ v.tree.bodies, SymPD b.mass ∧ EigOk eig b.mass) (hd : v.dyn = worldDynamic n (linksOf v)) (hmass : v.mass = worldMass v.dyn)
    {com : List (Fin 4 → ℝ)} (hcom : energyInit eig v.tree.bodies = .ok com) :
    ∃ Ec Ep, Ec + Ep = totalEnergy up m c [.weight (-9.81)] v ∧ ∀ (t : ℝ) (log : EnergyLog),
      energyUpdate log com t up v.gvel v.mass v.dyn = ⟨log.time ++ [t], log.kinetic ++ [Ec], log.potential ++ [Ep], log.mechanical ++ [Ec + Ep]⟩ := by
  have hl : ∀ l ∈ (linksOf v).links, ValidLink l ∧ Consistent v.gvel l := by
    intro l hl
    rw [linksOf, links_map] at hl
    obtain ⟨l', h', rfl⟩ := List.mem_map.mp hl
    exact ⟨(hr l' h').1.valid, (hr l' h').2.consistent⟩
  have hb : ∀ x ∈ (linksOf v).paths, x.1 ∈ v.tree.bodies := by
    intro x hx
    have : x.1 ∈ (linksOf v).bodies := (Spec.Forest.mem_bodies_iff _ _).mpr ⟨_, hx⟩
    rwa [linksOf, bodies_map] at this
  refine ⟨(v.gvel ⬝ᵥ v.mass *ᵥ v.gvel) / 2, 9.81 * ((worldDynamic n (linksOf v)).map fun x => massHeight up x.2.pose (m x.1) (c x.1)).sum, ?_, fun t log => ?_⟩
  · simp only [totalEnergy, Spec.potential, List.map_cons, List.map_nil, List.sum_cons, List.sum_nil, ← hd, ← hmass]
    ring
  obtain ⟨com', h1, h2⟩ := C63_energies (eig := eig) (linksOf v) v.gvel up m c I (fun l h => (hl l h).1) (fun l h => (hl l h).2)
    (fun x hx => hI _ (hb x hx)) (fun x hx => (hpd _ (hb x hx)).1) (fun x hx => (hpd _ (hb x hx)).2) t log
  have e : (worldDynamic n (linksOf v)).map Prod.fst = v.tree.bodies := by
    rw [worldDynamic, show (Prod.fst : Body × BodyDyn n → Body) = (·.1) from rfl, dyn_bodies, linksOf, bodies_map]
  rw [e] at h1
  obtain rfl : com = com' := Except.ok.inj (hcom.symm.trans h1)
  rw [← hd] at h2 ⊢
  rw [← hmass] at h2
  have h3 := congrArg EnergyLog.kinetic h2
  simp only [energyUpdate, List.append_cancel_left_eq, List.cons.injEq, and_true] at h3
  rw [h3]
  exact h2

/-- C132.  A mechanism without viscosity, made of bodies with (positive definite) masses, whose joints turn around one axis or slide (those attached to the
ground may turn around several axes), under its weight: `init` of an `EnergyMonitor` raises nothing, and during a simulation it logs a mechanical energy at the
start of each step, which is that of the initial state, up to `C h` when the steps are at most `h`. -/
theorem C132_monitor {up : Vec3} {m : Body → ℝ} {c : Body → Vec3} {eig : Mat3 → Mat3} {w w0 : MWorld n Unit} {t0 T : ℝ} {x u a : ℝ → Fin n → ℝ}
    (hw : JointedWorld m c w) (hp : PlainTree w) (hm : ∀ b ∈ w.tree.bodies, 1e-10 < m b ∨ m b • c b = 0)
    (hpd : ∀ b ∈ w.tree.bodies, SymPD b.mass ∧ EigOk eig b.mass) (hv : ∀ b ∈ w.tree.bodies, b.viscosity = 0)
    (hi : Mech.init w = .ok w0) (hx : ExactPath up m c [.weight (-9.81)] w0 t0 T x u a) :
    ∃ com, energyInit eig w0.tree.bodies = .ok com ∧ ∃ C ≥ 0, ∃ hmax > 0, ∀ (h : ℝ) (tl : List ℝ) (k i : ℕ) (tr : List (Ev (MWorld n Unit))) (w' : MWorld n Unit) (t' : ℝ),
      0 ≤ h → h ≤ hmax → tl.head? = some t0 → (∀ t ∈ tl, t ≤ T) → tl.IsChain (fun t1 t2 => t2 - t1 ≤ h) → i < k →
      simulate (engine (libPlug n up [.weight (-9.81)])) w tl (.list k) = (tr, .ok (w', t')) →
      (monitored com up ⟨[], [], [], []⟩ (updatesOf i tr)).time = tl.dropLast ∧
      (monitored com up ⟨[], [], [], []⟩ (updatesOf i tr)).mechanical.length = tl.length - 1 ∧
      ∀ E ∈ (monitored com up ⟨[], [], [], []⟩ (updatesOf i tr)).mechanical, |E - totalEnergy up m c [.weight (-9.81)] w0| ≤ C * h := by
  obtain ⟨w0', h1, hst⟩ := init_started hw.dofs
  obtain rfl : w0 = w0' := Except.ok.inj (hi.symm.trans h1)
  have hfix := Fixed.started hw hst
  have hbod : w0.tree.bodies = w.tree.bodies := hst.tree.links.2.symm
  choose I hI using fun b : Body => (Classical.em (b ∈ w.tree.bodies)).elim (fun hb => (hw.bodies b hb).1.imp fun I h => (fun _ => h : b ∈ w.tree.bodies → IsRigidMass b.mass (m b) (c b) I))
    (fun hb => ⟨(0 : Mat3), fun h => absurd h hb⟩)
  refine ⟨_, energyInit_ok (m := m) (c := c) (I := I) (fun b hb => hI b (hbod ▸ hb)) (fun b hb => (hpd b (hbod ▸ hb)).1) (fun b hb => (hpd b (hbod ▸ hb)).2), ?_⟩
  obtain ⟨C, hC, hmax, hpos, hs⟩ := C132_drift hw hp hm (cs := [.weight (-9.81)]) (by simp [PlainCtrl]) (by simp [SpringCtrl]) hv (by simp [UndampedCtrl]) hi hx
  refine ⟨C, hC, hmax, hpos, fun h tl k i tr w' t' hh hhm hhead hTl hch hik hrun => ?_⟩
  obtain ⟨-, seen, e1, e2⟩ := hs h tl k tr w' t' hh hhm hhead hTl hch hrun
  obtain ⟨t1, rest, w1, seen1, f1, f2, f3, f4, f5⟩ := C87_run hw.dofs hrun
  have hsame : seen1.map (fun o => (o.1, o.2.2)) = seen.map fun o => (o.1, o.2.2) := by
    rw [← updates_run hik t0 w0 tl seen, ← e1, f4, updates_run hik]
  have hup : updatesOf i tr = seen1.map fun o => (o.1, o.2.2) := by rw [f4, updates_run hik]
  have hfacts : ∀ x ∈ updatesOf i tr, ∃ Ec Ep, |Ec + Ep - totalEnergy up m c [.weight (-9.81)] w0| ≤ C * h ∧ ∀ log : EnergyLog,
      energyUpdate log (w0.tree.bodies.map fun b => ![c b 0, c b 1, c b 2, 1]) x.1 up x.2.gvel x.2.mass x.2.dyn =
        ⟨log.time ++ [x.1], log.kinetic ++ [Ec], log.potential ++ [Ep], log.mechanical ++ [Ec + Ep]⟩ := by
    intro x hxm
    have hxs := hxm
    rw [hup] at hxm
    obtain ⟨s, hs1, rfl⟩ := List.mem_map.mp hxm
    rw [hup, hsame] at hxs
    obtain ⟨s', hs2, hss⟩ := List.mem_map.mp hxs
    obtain ⟨g1, g2⟩ := Prod.mk.inj hss
    have hev : Ev.obsUpdate i s.2.1 s.1 s.2.2 ∈ tr := by
      rw [f4]
      simp only [runCalls, List.mem_append, List.mem_flatMap, stepCalls]
      exact .inl (.inr ⟨s, hs1, .inl (.inr (List.mem_map.mpr ⟨i, List.mem_range.mpr hik, rfl⟩))⟩)
    obtain ⟨-, q2, q3, q4, -, q6, -, -⟩ := C87_seen hw.dofs hrun hev
    have hr := evolves_rigid f3 (fun l hl => ⟨(Fixed.started hw f2).links l hl |>.2.2, (Fixed.started hw f2).links l hl |>.2.1⟩) s hs1
    obtain ⟨Ec, Ep, r1, r2⟩ := monitor_update (up := up) (m := m) (c := c) (I := I) (eig := eig) (v := s.2.2) (fun l hl => ⟨(hr l hl).1, q3 l hl⟩)
      (fun b hb => hI b (q2 ▸ hb)) (fun b hb => hpd b (q2 ▸ hb)) q4 q6
      (energyInit_ok (m := m) (c := c) (I := I) (fun b hb => hI b (q2 ▸ hb)) (fun b hb => (hpd b (q2 ▸ hb)).1) (fun b hb => (hpd b (q2 ▸ hb)).2))
    refine ⟨Ec, Ep, ?_, fun log => ?_⟩
    · rw [r1, ← g2]; exact e2 s' hs2
    · rw [hbod, ← q2]; exact r2 s.1 log
  choose! ec ep hb1 hb2 using hfacts
  have hm' := monitored_lists hb2 ⟨[], [], [], []⟩
  rw [hm']
  refine ⟨?_, ?_, ?_⟩
  · rw [← evolves_times f3, hup]; simp [Function.comp_def]
  · have := congrArg List.length (evolves_times f3)
    rw [List.length_map, List.length_dropLast] at this
    simp [hup, this]
  · intro E hE
    simp only [List.nil_append, List.mem_map] at hE
    obtain ⟨x, hxm, rfl⟩ := hE
    exact hb1 x hxm

/-- the double pendulum meets the hypotheses of `C132_monitor` -/
example : ∃ w0, Mech.init doublePendulum = .ok w0 ∧ ∃ T > 0, ∃ x u a, ExactPath ![0, 0, 1] (fun _ => 1) (fun _ => 0) [.weight (-9.81)] w0 0 T x u a ∧
    JointedWorld (fun _ => 1) (fun _ => 0) doublePendulum ∧ PlainTree doublePendulum ∧
    ∀ b ∈ doublePendulum.tree.bodies, SymPD b.mass ∧ EigOk (fun _ => 1) b.mass ∧ b.viscosity = 0 := by
  have hw := pendulum_jointed
  obtain ⟨w0, h0, -⟩ := init_started hw.dofs
  obtain ⟨T, hT, x, u, a, hx⟩ := C131_exists (up := ![0, 0, 1]) (cs := [.weight (-9.81)]) hw h0 (pendulum_mass h0) 0
  refine ⟨w0, h0, T, hT, x, u, a, by simpa using hx, hw, pendulum_plain, fun b hb => ?_⟩
  simp only [doublePendulum, Forest.bodies, List.append_nil, List.mem_cons, List.not_mem_nil, or_false] at hb
  have hb : b = ⟨1, 0⟩ := by rcases hb with rfl | rfl <;> rfl
  subst hb
  refine ⟨⟨Matrix.transpose_one, fun v hv => ?_⟩, ⟨by simp, ![1, 1, 1], ?_⟩, rfl⟩
  · rw [Matrix.one_mulVec]
    rcases lt_or_eq_of_le (Finset.sum_nonneg fun i _ => mul_self_nonneg (v i) : 0 ≤ v ⬝ᵥ v) with h | h
    · exact h
    · exact absurd (dotProduct_self_eq_zero.mp h.symm) hv
  · have h1 : b11 (1 : Mat6) = 1 ∧ b12 (1 : Mat6) = 0 := by
      rw [← blk_one]; simp
    have h2 : Matrix.diagonal (![1,1,1] : Vec3) = 1 := by
      ext i j; fin_cases i <;> fin_cases j <;> simp
    rw [IsEig, h2, centralInertia, h1.1, h1.2]
    simp

end Arboris
