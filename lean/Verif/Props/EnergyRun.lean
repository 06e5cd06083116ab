import Verif.Props.EnergyPath
import Verif.Props.ConvergeTurnRun

/-!
# C132: energy of the simulations of mechanisms
-/

namespace Arboris
open Matrix Spec Mech Build Sim Turn

variable {n : ℕ}

namespace Turn
open Smooth

lemma smooth_dot {E : Type*} [NormedAddCommGroup E] [NormedSpace ℝ E] {k : ℕ} {x y : E → Fin k → ℝ} (hx : SV x) (hy : SV y) : ContDiff ℝ 1 fun z => x z ⬝ᵥ y z := by
  simp only [dotProduct]
  exact ContDiff.sum fun i _ => (hx i).mul (hy i)

lemma smooth_height {E : Type*} [NormedAddCommGroup E] [NormedSpace ℝ E] {H : E → Mat4} (h : SM H) (up : Vec3) (m : ℝ) (c : Vec3) : ContDiff ℝ 1 fun z => massHeight up (H z) m c := by
  unfold massHeight pointOf
  refine contDiff_const.mul ?_
  refine smooth_dot (SV.const _) ?_
  intro i
  have h0 := h i.castSucc 0
  have h1 := h i.castSucc 1
  have h2 := h i.castSucc 2
  have h3 := h i.castSucc 3
  fun_prop

lemma smooth_sum {E α : Type*} [NormedAddCommGroup E] [NormedSpace ℝ E] (l : List α) (f : E → α → ℝ) (h : ∀ y ∈ l, ContDiff ℝ 1 fun z => f z y) :
    ContDiff ℝ 1 fun z => (l.map (f z)).sum := by
  induction l with
  | nil => exact contDiff_const
  | cons y l ih =>
    simp only [List.map_cons, List.sum_cons]
    exact (h y (by simp)).add (ih fun y hy => h y (by simp [hy]))

/-- the energy is a smooth function of the coordinates and velocities -/
lemma smooth_energy {w0 : MWorld n Unit} (h : ∀ l ∈ w0.tree.links, l.start + l.att.ndof ≤ n) (up : Vec3) (m : Body → ℝ) (c : Body → Vec3) (cs : List LibCtrl) :
    ContDiff ℝ 1 fun z : Z n => totalEnergy up m c cs (worldAt w0 z.1 z.2) := by
  obtain ⟨bs, h1, h2⟩ := smooth_bodies w0
  have h2' : ∀ z : Z n, worldDynamic n (linksOf (worldAt w0 z.1 z.2)) = bs.map fun x => (x.1, x.2 z) := h2
  unfold totalEnergy
  refine ContDiff.add (contDiff_const.mul ?_) (smooth_sum cs (fun (z : Z n) y => potential up m c (worldAt w0 z.1 z.2) y) fun y _ => ?_)
  · simp only [h2']
    exact smooth_dot smooth_snd ((Smooth.mass h1).mulVec smooth_snd)
  · cases y with
    | weight γ =>
      simp only [potential, h2', List.map_map, Function.comp_def]
      exact contDiff_const.mul (smooth_sum bs (fun z y => massHeight up (y.2 z).pose (m y.1) (c y.1)) fun y hy => smooth_height (h1 y hy).pose up _ _)
    | pd js g =>
      simp only [potential, gpos_at h, springs_eq]
      have he : ∀ d : ℕ, ContDiff ℝ 1 fun z : Z n => entry z.1 d := fun d => smooth_entry smooth_fst d
      refine contDiff_const.mul (ContDiff.sum fun i _ => ContDiff.sum fun j _ => ?_)
      exact (((he _).sub contDiff_const).mul contDiff_const).mul ((he _).sub contDiff_const)

lemma energy_tree {up : Vec3} {m : Body → ℝ} {c : Body → Vec3} {cs : List LibCtrl} {w w' : MWorld n Unit} (h1 : w.tree = w'.tree) (h2 : w.gvel = w'.gvel) :
    totalEnergy up m c cs w = totalEnergy up m c cs w' := by
  have e1 : linksOf w = linksOf w' := by unfold linksOf; rw [h1]
  have e2 : potential up m c w = potential up m c w' := by
    funext y
    cases y with
    | weight γ => unfold potential; rw [e1]
    | pd js g => unfold potential gposOf; rw [h1]
  unfold totalEnergy
  rw [e1, h2, e2]

end Turn

/-- C132: the energy of every state of a simulation, with small enough steps of at most `h`, differs by at most `C h` from the energy of the exact motion. -/
theorem C132_simulations {up : Vec3} {m : Body → ℝ} {c : Body → Vec3} {cs : List LibCtrl} {w w0 : MWorld n Unit} {t0 T : ℝ} {x u a : ℝ → Fin n → ℝ}
    (hw : JointedWorld m c w) (hg : ∀ y ∈ cs, PlainCtrl y) (hi : Mech.init w = .ok w0) (hx : ExactPath up m c cs w0 t0 T x u a) (es : List LibCtrl) :
    ∃ C ≥ 0, ∃ hmax > 0, ∀ (h : ℝ) (tl : List ℝ) (k : ℕ) (tr : List (Ev (MWorld n Unit))) (w' : MWorld n Unit) (t' : ℝ), 0 ≤ h → h ≤ hmax → tl.head? = some t0 →
      (∀ t ∈ tl, t ≤ T) → tl.IsChain (fun t1 t2 => t2 - t1 ≤ h) → simulate (engine (libPlug n up cs)) w tl (.list k) = (tr, .ok (w', t')) →
      tl.getLast? = some t' ∧ t' ∈ Set.Icc t0 T ∧ |totalEnergy up m c es w' - energyAt up m c es w0 x u t'| ≤ C * h ∧
      ∃ seen, tr = runCalls k t0 w0 tl seen ∧ ∀ s ∈ seen, s.1 ∈ Set.Icc t0 T ∧ |totalEnergy up m c es s.2.2 - energyAt up m c es w0 x u s.1| ≤ C * h := by
  obtain ⟨w0', h1, hst⟩ := init_started hw.dofs
  obtain rfl : w0 = w0' := Except.ok.inj (hi.symm.trans h1)
  have hfix := Fixed.started hw hst
  obtain ⟨C, hC, hmax, hpos, hconv⟩ := Turn.converges hw hg hi hx
  have hcont : ContinuousOn (fun t => (x t, u t)) (Set.Icc t0 T) := fun t ht => ((hx.dx t ht).continuousAt.prodMk (hx.du t ht).continuousAt).continuousWithinAt
  obtain ⟨R, hR⟩ := isCompact_Icc.exists_bound_of_continuousOn hcont
  have hE := smooth_energy (fun l hl => (hfix.links l hl).1) up m c es
  have hcomp : IsCompact (Metric.closedBall (0 : Z n) (R + C * hmax)) := isCompact_closedBall _ _
  have hdc : Continuous (fderiv ℝ fun z : Z n => totalEnergy up m c es (worldAt w0 z.1 z.2)) := hE.continuous_fderiv one_ne_zero
  obtain ⟨K, hK⟩ := hcomp.exists_bound_of_continuousOn hdc.continuousOn
  have hlip : ∀ t ∈ Set.Icc t0 T, ∀ (v : MWorld n Unit) (h : ℝ), h ≤ hmax → NearAt w0 (x t, u t) (C * h) v →
      |totalEnergy up m c es v - energyAt up m c es w0 x u t| ≤ max K 0 * C * h := by
    intro t ht v h hh ⟨q, hq, hn⟩
    have h3 : ‖((x t, u t) : Z n)‖ ≤ R := hR t ht
    have hCh : C * h ≤ C * hmax := mul_le_mul_of_nonneg_left hh hC
    have h4 : ‖(q, v.gvel)‖ ≤ R + C * hmax := by
      have := norm_le_norm_add_norm_sub' (q, v.gvel) ((x t, u t) : Z n)
      linarith
    have h5 := (convex_closedBall (0 : Z n) (R + C * hmax)).norm_image_sub_le_of_norm_fderiv_le (𝕜 := ℝ) (f := fun z : Z n => totalEnergy up m c es (worldAt w0 z.1 z.2)) (C := max K 0)
      (fun z _ => hE.differentiable one_ne_zero z) (fun z hz => (hK z hz).trans (le_max_left _ _)) (x := (x t, u t)) (y := (q, v.gvel))
      (by
        rw [mem_closedBall_zero_iff]
        have : 0 ≤ C * hmax := by positivity
        linarith) (by rw [mem_closedBall_zero_iff]; exact h4)
    have e : totalEnergy up m c es v = totalEnergy up m c es (worldAt w0 q v.gvel) := energy_tree hq rfl
    rw [e]
    refine h5.trans ?_
    rw [mul_assoc]
    exact mul_le_mul_of_nonneg_left hn (le_max_right _ _)
  refine ⟨max K 0 * C, by positivity, hmax, hpos, ?_⟩
  intro h tl k tr w' t' hh hhm hhead hTl hch hrun
  obtain ⟨e1, e2, seen, e3, e4⟩ := hconv h tl k tr w' t' hh hhm hhead hTl hch hrun
  exact ⟨e1, e2.1, hlip _ e2.1 _ _ hhm e2.2, seen, e3, fun s hs => ⟨(e4 s hs).1, hlip _ (e4 s hs).1 _ _ hhm (e4 s hs).2⟩⟩

lemma energy_start {up : Vec3} {m : Body → ℝ} {c : Body → Vec3} {cs es : List LibCtrl} {w w0 : MWorld n Unit} {t0 T : ℝ} {x u a : ℝ → Fin n → ℝ}
    (hw : JointedWorld m c w) (hi : Mech.init w = .ok w0) (hx : ExactPath up m c cs w0 t0 T x u a) : energyAt up m c es w0 x u t0 = totalEnergy up m c es w0 := by
  obtain ⟨w0', h1, hst⟩ := init_started hw.dofs
  obtain rfl : w0 = w0' := Except.ok.inj (hi.symm.trans h1)
  have hfix := Fixed.started hw hst
  refine energy_tree ?_ hx.vel
  rw [worldAt, hx.vel]
  exact map_self fun l hl => jointAt_self (hfix.links l hl).2.1 (hx.pos l hl) (hst.vel l hl)

/-- C132.  A mechanism without viscosity nor dampers, made of bodies with masses (or centred), whose joints turn around one axis or slide (those attached to
the ground may turn around several axes), with its weight and springs: the energy of every state of a simulation — those shown to the observers, and the last —
is that of the first state, up to `C h` when the steps are at most `h`. -/
theorem C132_drift {up : Vec3} {m : Body → ℝ} {c : Body → Vec3} {cs : List LibCtrl} {w w0 : MWorld n Unit} {t0 T : ℝ} {x u a : ℝ → Fin n → ℝ}
    (hw : JointedWorld m c w) (hp : PlainTree w) (hm : ∀ b ∈ w.tree.bodies, 1e-10 < m b ∨ m b • c b = 0) (hg : ∀ y ∈ cs, PlainCtrl y) (hc : ∀ y ∈ cs, SpringCtrl w y)
    (hv : ∀ b ∈ w.tree.bodies, b.viscosity = 0) (hd : ∀ y ∈ cs, UndampedCtrl w y)
    (hi : Mech.init w = .ok w0) (hx : ExactPath up m c cs w0 t0 T x u a) :
    ∃ C ≥ 0, ∃ hmax > 0, ∀ (h : ℝ) (tl : List ℝ) (k : ℕ) (tr : List (Ev (MWorld n Unit))) (w' : MWorld n Unit) (t' : ℝ), 0 ≤ h → h ≤ hmax → tl.head? = some t0 →
      (∀ t ∈ tl, t ≤ T) → tl.IsChain (fun t1 t2 => t2 - t1 ≤ h) → simulate (engine (libPlug n up cs)) w tl (.list k) = (tr, .ok (w', t')) →
      |totalEnergy up m c cs w' - totalEnergy up m c cs w0| ≤ C * h ∧
      ∃ seen, tr = runCalls k t0 w0 tl seen ∧ ∀ s ∈ seen, |totalEnergy up m c cs s.2.2 - totalEnergy up m c cs w0| ≤ C * h := by
  obtain ⟨C, hC, hmax, hpos, hs⟩ := C132_simulations hw hg hi hx cs
  refine ⟨C, hC, hmax, hpos, ?_⟩
  intro h tl k tr w' t' hh hhm hhead hTl hch hrun
  obtain ⟨-, ht, e2, seen, e3, e4⟩ := hs h tl k tr w' t' hh hhm hhead hTl hch hrun
  have hcons := C132_conserved hw hp hm hc hv hd hi hx
  rw [energy_start hw hi hx] at hcons
  rw [hcons t' ht] at e2
  refine ⟨e2, seen, e3, fun s hs => ?_⟩
  obtain ⟨h1, h2⟩ := e4 s hs
  rwa [hcons s.1 h1] at h2

/-- C132.  With positive viscosities and dampers (and springs), the energy of the states of a simulation is at most that of the first one, plus `C h` when the
steps are at most `h`. -/
theorem C132_bound {up : Vec3} {m : Body → ℝ} {c : Body → Vec3} {cs : List LibCtrl} {w w0 : MWorld n Unit} {t0 T : ℝ} {x u a : ℝ → Fin n → ℝ}
    (hw : JointedWorld m c w) (hp : PlainTree w) (hm : ∀ b ∈ w.tree.bodies, 1e-10 < m b ∨ m b • c b = 0) (hg : ∀ y ∈ cs, PlainCtrl y) (hc : ∀ y ∈ cs, SpringCtrl w y)
    (hv : ∀ b ∈ w.tree.bodies, SymPSD b.viscosity) (hd : ∀ y ∈ cs, PassiveCtrl w y)
    (hi : Mech.init w = .ok w0) (hx : ExactPath up m c cs w0 t0 T x u a) :
    ∃ C ≥ 0, ∃ hmax > 0, ∀ (h : ℝ) (tl : List ℝ) (k : ℕ) (tr : List (Ev (MWorld n Unit))) (w' : MWorld n Unit) (t' : ℝ), 0 ≤ h → h ≤ hmax → tl.head? = some t0 →
      (∀ t ∈ tl, t ≤ T) → tl.IsChain (fun t1 t2 => t2 - t1 ≤ h) → simulate (engine (libPlug n up cs)) w tl (.list k) = (tr, .ok (w', t')) →
      totalEnergy up m c cs w' ≤ totalEnergy up m c cs w0 + C * h ∧
      ∃ seen, tr = runCalls k t0 w0 tl seen ∧ ∀ s ∈ seen, totalEnergy up m c cs s.2.2 ≤ totalEnergy up m c cs w0 + C * h := by
  obtain ⟨C, hC, hmax, hpos, hs⟩ := C132_simulations hw hg hi hx cs
  refine ⟨C, hC, hmax, hpos, ?_⟩
  intro h tl k tr w' t' hh hhm hhead hTl hch hrun
  obtain ⟨-, ht, e2, seen, e3, e4⟩ := hs h tl k tr w' t' hh hhm hhead hTl hch hrun
  have hle := C132_dissipates hw hp hm hc hv hd hi hx
  have hcons : ∀ t ∈ Set.Icc t0 T, energyAt up m c cs w0 x u t ≤ totalEnergy up m c cs w0 := by
    intro t ht
    rw [← energy_start hw hi hx]
    exact hle ⟨le_rfl, ht.1.trans ht.2⟩ ht ht.1
  refine ⟨by linarith [hcons t' ht, (abs_le.mp e2).2], seen, e3, fun s hs => ?_⟩
  obtain ⟨h1, h2⟩ := e4 s hs
  linarith [hcons s.1 h1, (abs_le.mp h2).2]

/-! ### an example -/

/-- regular instants -/
lemma Turn.grid {T h : ℝ} (hT : 0 < T) {N : ℕ} (hN : 0 < N) (hh : T / N ≤ h) :
    let tl := (List.range (N + 1)).map fun i : ℕ => T * i / N
    tl.Pairwise (· < ·) ∧ tl.head? = some 0 ∧ (∀ t ∈ tl, t ≤ T) ∧ tl.IsChain (fun t1 t2 : ℝ => t2 - t1 ≤ T / N) ∧ tl.IsChain (fun t1 t2 : ℝ => t2 - t1 ≤ h) ∧ tl.getLast? = some T := by
  have hN' : (0 : ℝ) < N := by exact_mod_cast hN
  intro tl
  have hch : tl.IsChain fun t1 t2 : ℝ => t2 - t1 ≤ T / N := by
    rw [List.isChain_iff_getElem]
    intro i hi
    simp only [tl, List.getElem_map, List.getElem_range]
    refine le_of_eq ?_
    push_cast
    ring
  refine ⟨?_, by simp [tl, List.head?_range], ?_, hch, hch.imp fun _ _ h => h.trans hh, ?_⟩
  · simp only [tl, List.pairwise_map]
    refine List.pairwise_lt_range.imp fun {i j} hij => ?_
    have : (i : ℝ) < j := by exact_mod_cast hij
    exact (div_lt_div_iff_of_pos_right hN').mpr (mul_lt_mul_of_pos_left this hT)
  · intro t ht
    obtain ⟨i, hi, rfl⟩ := List.mem_map.mp ht
    have : (i : ℝ) ≤ N := by
      have := List.mem_range.mp hi
      exact_mod_cast Nat.lt_succ_iff.mp this
    rw [div_le_iff₀ hN']
    exact mul_le_mul_of_nonneg_left this hT.le
  · simp only [tl, List.range_succ, List.map_append]
    simp
    field_simp

lemma pendulum_plain : PlainTree doublePendulum := by
  intro x hx pre l post e
  left
  have hl : l ∈ doublePendulum.tree.links := mem_links_of_mem_paths hx (by rw [e]; simp)
  simp only [doublePendulum, Forest.links, List.append_nil, List.mem_cons, List.not_mem_nil, or_false] at hl
  rcases hl with rfl | rfl <;> simp [SingleAxis]

/-- C132 (its hypotheses can be met): a double pendulum under its weight, in motion, has an exact motion during some time `T`; its simulations with `N` steps do not
raise when `N` is large, and end with the energy of the beginning up to `C T / N`. -/
theorem C132_example : ∃ w0, Mech.init doublePendulum = .ok w0 ∧ ∃ T > 0, ∃ C ≥ 0, ∃ N0 : ℕ, ∀ N : ℕ, N0 < N → ∃ tr w',
      simulate (engine (libPlug 2 ![0, 0, 1] [.weight (-9.81)])) doublePendulum ((List.range (N + 1)).map fun i : ℕ => T * i / N) (.list 0) = (tr, .ok (w', T)) ∧
      |totalEnergy ![0, 0, 1] (fun _ => 1) (fun _ => 0) [.weight (-9.81)] w' - totalEnergy ![0, 0, 1] (fun _ => 1) (fun _ => 0) [.weight (-9.81)] w0| ≤ C * (T / N) := by
  have hw := pendulum_jointed
  obtain ⟨w0, h0, -⟩ := init_started hw.dofs
  obtain ⟨T, hT, x, u, a, hx⟩ := C131_exists (up := ![0, 0, 1]) (cs := [.weight (-9.81)]) hw h0 (pendulum_mass h0) 0
  have hv : ∀ b ∈ doublePendulum.tree.bodies, b.viscosity = 0 := by
    intro b hb
    simp only [doublePendulum, Forest.bodies, List.append_nil, List.mem_cons, List.not_mem_nil, or_false] at hb
    rcases hb with rfl | rfl <;> rfl
  obtain ⟨C, hC, h1, hh1, hconv⟩ := C132_drift hw pendulum_plain (fun _ _ => .inl (by norm_num)) (by simp [PlainCtrl]) (by simp [SpringCtrl]) hv (by simp [UndampedCtrl]) h0 hx
  obtain ⟨h2, hh2, hruns⟩ := C131_runs hw (by simp [PlainCtrl]) (by simp [Suited]) h0 hx
  obtain ⟨N0, hN0⟩ := exists_nat_gt (T / min h1 h2)
  have hmin := lt_min hh1 hh2
  refine ⟨w0, h0, T, hT, C, hC, N0, fun N hN => ?_⟩
  have hN' : (0 : ℝ) < N := by exact_mod_cast (Nat.zero_le N0).trans_lt hN
  have hsmall : T / N ≤ min h1 h2 := by
    rw [div_lt_iff₀ hmin] at hN0
    rw [div_le_iff₀ hN']
    have : (N0 : ℝ) ≤ N := by exact_mod_cast hN.le
    nlinarith
  obtain ⟨g1, g2, g3, g4, g5, g6⟩ := Turn.grid hT (N := N) (by omega) (hsmall.trans (min_le_right _ _))
  obtain ⟨tr, w', t', hrun⟩ := hruns _ 0 g2 g1 g3 g5
  obtain ⟨k1, -⟩ := hconv (T / N) _ 0 tr w' t' (by positivity) (hsmall.trans (min_le_left _ _)) g2 g3 g4 hrun
  obtain ⟨_, _, _, _, -, -, -, -, -, e6⟩ := (C45_run ..).mp hrun
  rw [g6] at e6
  obtain rfl := Option.some.inj e6
  exact ⟨tr, w', hrun, k1⟩

end Arboris
