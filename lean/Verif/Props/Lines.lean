import Verif.Spec.Lines
import Verif.Props.ColladaShapes

/-! # C125: the links of the drawing join the frames to their bodies -/

namespace Arboris
open Spec Visu Build Log Graph Matrix

/-- **C125, `create_line`.** The matrix made by `create_line` takes the line mesh to the segment from `‖e - s‖ s` to
`‖e - s‖ s + (e - s)`. -/
theorem C125_line {argsort : Vec3 → Equiv.Perm (Fin 3)} (hs : ∀ z, IsArgsortAbs z (argsort z)) {s e : Vec3} (hne : s ≠ e) :
    ∃ X, createLine argsort s e = .ok X ∧ (∀ j, X 3 j = if j = 3 then 1 else 0) ∧
      ∀ t : ℝ, toGround X ![0, 0, t] = dist3 e s • s + t • (e - s) := by
  have hv : e - s ≠ 0 := sub_ne_zero.mpr (Ne.symm hne)
  have h0 : norm3 (e - s) ≠ 0 := fun h => hv (norm3_eq_zero.mp h)
  have hp : norm3 (e - s) > 0 := lt_of_le_of_ne (norm3_nonneg _) (Ne.symm h0)
  obtain ⟨R, er, hR, hz⟩ := zaligned_mkH (norm3_unit hv) (hs _)
  refine ⟨scaleT (norm3 (e - s)) (norm3 (e - s)) (norm3 (e - s)) * mkH R s, ?_, ?_, ?_⟩
  · simp only [createLine]
    rw [if_pos hp]
    simp only [bind, Except.bind, er, rot_mkH, pure, Except.pure]
  · intro j
    fin_cases j <;> simp [Matrix.mul_apply, Fin.sum_univ_four, scaleT, mkH]
  · intro t
    rw [← norm3_sub]
    have h2 : ∀ i, R i 2 = (norm3 (e - s))⁻¹ * (e i - s i) := by
      intro i
      have := congrFun hz i
      simpa using this
    have k : toGround (scaleT (norm3 (e - s)) (norm3 (e - s)) (norm3 (e - s)) * mkH R s) ![0, 0, t] =
        norm3 (e - s) • toGround (mkH R s) ![0, 0, t] := by
      funext i
      fin_cases i <;> simp [toGround, Matrix.mul_apply, Fin.sum_univ_four, scaleT, mkH] <;> ring
    rw [k, toGround_mkH]
    funext i
    have hm : (R *ᵥ ![0, 0, t]) i = R i 2 * t := by
      simp [Matrix.mulVec, dotProduct, Fin.sum_univ_three]
    simp only [Pi.smul_apply, Pi.add_apply, Pi.sub_apply, smul_eq_mul, hm, h2]
    field_simp
    ring

/-- the full claim about the driver: `create_line(start, end)` draws the segment from `start` to `end` -/
def C125_Claim : Prop := ∀ argsort : Vec3 → Equiv.Perm (Fin 3), (∀ z, IsArgsortAbs z (argsort z)) → ∀ s e : Vec3, s ≠ e →
  ∃ X, createLine argsort s e = .ok X ∧ lineSeen X = between s e

/-- **C125, false part.** It does not: the scaling is applied to the start, too. -/
theorem C125_line_false : ¬ C125_Claim := by
  intro h
  obtain ⟨argsort, hs⟩ := C48_sort_exists
  have hne : (![1, 0, 0] : Vec3) ≠ ![3, 0, 0] := by
    intro h; have := congrFun h 0; simp at this
  obtain ⟨X, e, hl⟩ := h argsort hs ![1, 0, 0] ![3, 0, 0] hne
  obtain ⟨X', e', _, hx⟩ := C125_line hs hne
  rw [e] at e'
  cases e'
  have hd : dist3 ![3, 0, 0] ![1, 0, 0] = 2 := by
    rw [dist3, Real.sqrt_eq_iff_mul_self_eq (by positivity) (by norm_num)]
    simp; norm_num
  have hin : toGround X ![0, 0, 1] ∈ lineSeen X := ⟨1, by norm_num, le_refl _, rfl⟩
  rw [hl] at hin
  obtain ⟨t, t0, t1, ht⟩ := hin
  rw [hx, hd] at ht
  have := congrFun ht 0
  simp at this
  linarith

lemma pos_origin (H : Mat4) : pos H = origin H := by
  funext i; fin_cases i <;> rfl

lemma toGround_affine (P : Mat4) (t : ℝ) (e : Vec3) : toGround P (t • e) = (1 - t) • origin P + t • toGround P e := by
  funext i
  simp only [toGround, origin, Pi.smul_apply, Pi.add_apply, smul_eq_mul]
  ring

lemma origin_mul {P B : Mat4} (hB : IsRigid B) : origin (P * B) = toGround P (origin B) := by
  have h3 : B 3 3 = 1 := by rw [hB.eq_mkH]; simp [mkH]
  funext i
  simp only [origin, toGround, Matrix.mul_apply, Fin.sum_univ_four, h3]
  have e0 : (0 : Fin 3).castSucc = (0 : Fin 4) := rfl
  have e1 : (1 : Fin 3).castSucc = (1 : Fin 4) := rfl
  have e2 : (2 : Fin 3).castSucc = (2 : Fin 4) := rfl
  rw [e0, e1, e2]
  ring

/-- the line drawn in a node placed at `P` for a constant pose `B` -/
lemma line_at {argsort : Vec3 → Equiv.Perm (Fin 3)} (hs : ∀ z, IsArgsortAbs z (argsort z)) {P B : Mat4} (hP : IsRigid P) (hB : IsRigid B)
    (h : origin B ≠ 0) (p : ℕ) : ∃ X, addLines argsort [(p, B)] = .ok [⟨p, X⟩] ∧ lineSeen (P * X) = between (origin P) (origin (P * B)) := by
  obtain ⟨X, e, hl, hx⟩ := C125_line hs (Ne.symm h)
  have hn : norm3 (pos B) > 0 := by
    rw [pos_origin]
    exact lt_of_le_of_ne (norm3_nonneg _) (fun k => h (norm3_eq_zero.mp k.symm))
  refine ⟨X, ?_, ?_⟩
  · simp only [addLines]
    rw [if_pos hn, pos_origin, e]
    rfl
  · ext x
    constructor
    · rintro ⟨t, t0, t1, rfl⟩
      refine ⟨t, t0, t1, ?_⟩
      rw [toGround_mul_rigid hP _ hl, hx, origin_mul hB, ← toGround_affine]
      congr 1
      simp
    · rintro ⟨t, t0, t1, rfl⟩
      refine ⟨t, t0, t1, ?_⟩
      rw [toGround_mul_rigid hP _ hl, hx, origin_mul hB, ← toGround_affine]
      congr 1
      simp

lemma no_line {argsort : Vec3 → Equiv.Perm (Fin 3)} {B : Mat4} (h : origin B = 0) (p : ℕ) : addLines argsort [(p, B)] = .ok [] := by
  have hn : ¬ norm3 (pos B) > 0 := by
    rw [pos_origin, h, norm3_eq_zero.mpr rfl]; exact lt_irrefl _
  simp only [addLines]
  rw [if_neg hn]

lemma between_comm (a b : Vec3) : between a b = between b a := by
  ext x
  constructor <;>
  · rintro ⟨t, t0, t1, rfl⟩
    refine ⟨1 - t, by linarith, by linarith, ?_⟩
    funext i
    simp only [Pi.add_apply, Pi.smul_apply, smul_eq_mul]
    ring

/-- a line of the drawing joins the frame `f` to its body -/
def LineAt (o : Objs) (g : Geo) (nodes : List Node) (f : ℕ) (n : LineNode) : Prop :=
  ∃ H, DrawnAt nodes n.parent H ∧
    lineSeen (H * n.xform) = between (origin (g.bodyPose (o.subBody f))) (origin (poseOf o g (.sub f)))

structure LInv (o : Objs) (g : Geo) (flat : Bool) (A : List FrameRef) (fs : List ℕ) (s : DSt × List LineNode) : Prop where
  good : DGood o g flat A s.1
  exact : ∀ f, (PDict.get? s.1.frameNodes f).isSome → f ∈ A
  nodup : fs.Nodup
  mem : ∀ f, f ∈ fs ↔ FrameRef.sub f ∈ A ∧ g.moving f = false ∧ origin (g.bpose f) ≠ 0
  lines : List.Forall₂ (LineAt o g s.1.nodes) fs s.2

lemma isSome_set {K V : Type} [DecidableEq K] {d : PDict K V} {k f : K} {i : V} (h : (PDict.get? (PDict.set d k i) f).isSome) :
    f = k ∨ (PDict.get? d f).isSome := by
  rw [pget_set] at h
  by_cases hf : f = k
  · exact .inl hf
  · rw [if_neg hf] at h; exact .inr h

/-- a call without line -/
lemma LInv.same {o : Objs} {g : Geo} {flat : Bool} {A A' : List FrameRef} {fs : List ℕ} {d d' : DSt} {ls : List LineNode} (h : LInv o g flat A fs (d, ls))
    (hg : DGood o g flat A' d') (hx : ∀ f, (PDict.get? d'.frameNodes f).isSome → f ∈ A') (hn : ∃ l, d'.nodes = d.nodes ++ l)
    (hm : ∀ f, (FrameRef.sub f ∈ A' ∧ g.moving f = false ∧ origin (g.bpose f) ≠ 0) ↔ (FrameRef.sub f ∈ A ∧ g.moving f = false ∧ origin (g.bpose f) ≠ 0)) :
    LInv o g flat A' fs (d', ls) := by
  obtain ⟨l, hl⟩ := hn
  refine ⟨hg, hx, h.nodup, fun f => (h.mem f).trans (hm f).symm, ?_⟩
  refine h.lines.imp ?_
  rintro f n ⟨H, h1, h2⟩
  change DrawnAt d.nodes n.parent H at h1
  exact ⟨H, by change DrawnAt d'.nodes _ _; rw [hl]; exact h1.append, h2⟩

/-- a call with a line -/
lemma LInv.more {o : Objs} {g : Geo} {flat : Bool} {A A' : List FrameRef} {fs : List ℕ} {d d' : DSt} {ls : List LineNode} (h : LInv o g flat A fs (d, ls))
    (hg : DGood o g flat A' d') (hx : ∀ f, (PDict.get? d'.frameNodes f).isSome → f ∈ A') (hn : ∃ l, d'.nodes = d.nodes ++ l)
    {f : ℕ} (hA : ∀ f', FrameRef.sub f' ∈ A' ↔ f' = f ∨ FrameRef.sub f' ∈ A) (hnew : FrameRef.sub f ∉ A) (hmv : g.moving f = false)
    (ho : origin (g.bpose f) ≠ 0) {n : LineNode} (hl : LineAt o g d'.nodes f n) : LInv o g flat A' (fs ++ [f]) (d', ls ++ [n]) := by
  obtain ⟨l, hn⟩ := hn
  refine ⟨hg, hx, ?_, ?_, ?_⟩
  · refine List.Nodup.append h.nodup (List.nodup_singleton _) ?_
    intro x hx hx'
    rw [List.mem_singleton] at hx'
    subst hx'
    exact hnew ((h.mem x).mp hx).1
  · intro f'
    rw [List.mem_append, List.mem_singleton, h.mem, hA]
    constructor
    · rintro (⟨a, b, c⟩ | rfl)
      · exact ⟨.inr a, b, c⟩
      · exact ⟨.inl rfl, hmv, ho⟩
    · rintro ⟨rfl | a, b, c⟩
      · exact .inr rfl
      · exact .inl ⟨a, b, c⟩
  · refine List.rel_append ?_ (.cons hl .nil)
    refine h.lines.imp ?_
    rintro f n ⟨H, h1, h2⟩
    change DrawnAt d.nodes n.parent H at h1
    exact ⟨H, by change DrawnAt d'.nodes _ _; rw [hn]; exact h1.append, h2⟩

/-- the poses used by a call are rigid -/
def LineOk (o : Objs) (g : Geo) : Ev → Prop
  | .reg (.frame (.sub f)) => IsRigid (g.bodyPose (o.subBody f)) ∧ (g.moving f = false → IsRigid (g.bpose f))
  | .link _ _ (.sub f) => IsRigid (g.bodyPose (o.subBody f)) ∧ IsRigid (g.bpose f)
  | _ => True

lemma lines_step {o : Objs} {g : Geo} {flat : Bool} {argsort : Vec3 → Equiv.Perm (Fin 3)} (hs : ∀ z, IsArgsortAbs z (argsort z))
    {A : List FrameRef} {fs : List ℕ} {d : DSt} {ls : List LineNode} (h : LInv o g flat A fs (d, ls)) {e : Ev}
    (hneed : ∀ r ∈ dneed o e, r ∈ A) (hl : LinkOk o g e) (hnew : ∀ f0 j f1, e = .link f0 j f1 → ∀ r ∈ A, o.bodyOf r ≠ o.bodyOf f1)
    (hr : LineOk o g e) : ∃ s' fs', linesEv o g flat argsort (d, ls) e = .ok s' ∧ LInv o g flat (dgive o e ++ A) fs' s' := by
  have hgood0 : DGood o g flat A d := h.good
  have hex0 : ∀ f, (PDict.get? d.frameNodes f).isSome → f ∈ A := h.exact
  obtain ⟨d', hd, hgood⟩ := drawEv_ok hgood0 hneed hl
  have keep : dgive o e = [] → d' = d → constFrames o g flat d e = .ok [] →
      ∃ s' fs', linesEv o g flat argsort (d, ls) e = .ok s' ∧ LInv o g flat (dgive o e ++ A) fs' s' := by
    intro he hdd hc
    refine ⟨(d', ls ++ []), fs, ?_, ?_⟩
    · simp only [linesEv, hd, hc, bind, Except.bind, addLines, pure, Except.pure]
    · rw [List.append_nil]
      refine h.same hgood ?_ ⟨[], by rw [hdd, List.append_nil]⟩ ?_
      · rw [hdd, he]; exact hex0
      · intro f; rw [he]; rfl
  cases e with
  | initParse _ => exact hl.elim
  | reg x =>
    cases x with
    | frame f =>
      cases f with
      | body b =>
        refine keep rfl ?_ rfl
        obtain ⟨i, hi, _⟩ := hgood0.node (hneed (.body b) (by simp [dneed]))
        simp only [drawEv, drawReg, hi, bind, Except.bind, pure, Except.pure] at hd
        split at hd <;> cases hd <;> rfl
      | sub f =>
        obtain ⟨hr1, hr2⟩ := hr
        obtain ⟨p, hp, hpd⟩ := hgood0.node (hneed (.body (o.subBody f)) (by simp [dneed]))
        have hA : ∀ f', FrameRef.sub f' ∈ dgive o (.reg (.frame (.sub f))) ++ A ↔ f' = f ∨ FrameRef.sub f' ∈ A := by
          intro f'; simp [dgive]
        by_cases hsome : (PDict.get? d.frameNodes (.sub f)).isSome
        · have hin := hex0 _ hsome
          simp only [drawEv, drawReg, hsome, if_true] at hd
          cases hd
          refine ⟨(d, ls ++ []), fs, ?_, ?_⟩
          · simp only [linesEv, drawEv, drawReg, constFrames, hsome, if_true, bind, Except.bind, addLines, pure, Except.pure]
          · rw [List.append_nil]
            refine h.same hgood ?_ ⟨[], (List.append_nil _).symm⟩ ?_
            · intro f' hf'; exact List.mem_append_right _ (hex0 f' hf')
            · intro f'
              rw [hA]
              constructor
              · rintro ⟨rfl | a, b⟩
                · exact ⟨hin, b⟩
                · exact ⟨a, b⟩
              · rintro ⟨a, b⟩; exact ⟨.inr a, b⟩
        · have hout : FrameRef.sub f ∉ A := fun hin => hsome (hgood0.has _ hin)
          have hx : ∀ i, d'.frameNodes = PDict.set d.frameNodes (.sub f) i →
              ∀ f', (PDict.get? d'.frameNodes f').isSome → f' ∈ dgive o (.reg (.frame (.sub f))) ++ A := by
            intro i hi f' hf'
            rw [hi] at hf'
            rcases isSome_set hf' with rfl | hf'
            · simp [dgive]
            · exact List.mem_append_right _ (hex0 _ hf')
          by_cases hm : g.moving f = true
          · have hsame : ∀ f', (FrameRef.sub f' ∈ dgive o (.reg (.frame (.sub f))) ++ A ∧ g.moving f' = false ∧ origin (g.bpose f') ≠ 0) ↔
                (FrameRef.sub f' ∈ A ∧ g.moving f' = false ∧ origin (g.bpose f') ≠ 0) := by
              intro f'
              rw [hA]
              constructor
              · rintro ⟨rfl | a, b⟩
                · rw [hm] at b; cases b.1
                · exact ⟨a, b⟩
              · rintro ⟨a, b⟩; exact ⟨.inr a, b⟩
            have hc : constFrames o g flat d (.reg (.frame (.sub f))) = .ok [] := by
              simp only [constFrames, hsome, hm, if_true, if_false]; rfl
            refine ⟨(d', ls ++ []), fs, by simp only [linesEv, hd, hc, bind, Except.bind, addLines, pure, Except.pure], ?_⟩
            rw [List.append_nil]
            by_cases hf : flat = true
            · simp only [drawEv, drawReg, hsome, hm, hf, if_true, if_false] at hd
              cases hd
              exact h.same hgood (hx _ rfl) ⟨_, rfl⟩ hsame
            · simp only [drawEv, drawReg, hsome, hm, hf, hp, bind, Except.bind, if_true, if_false, pure, Except.pure] at hd
              cases hd
              exact h.same hgood (hx _ rfl) ⟨_, rfl⟩ hsame
          · have hm' : g.moving f = false := by simpa using hm
            have hc : constFrames o g flat d (.reg (.frame (.sub f))) = .ok [(p, g.bpose f)] := by
              simp only [constFrames, hsome, hm, hp, if_false, bind, Except.bind]; rfl
            have hd0 := hd
            simp only [drawEv, drawReg, hsome, hm, hp, bind, Except.bind, if_false, pure, Except.pure] at hd
            have hd1 := Except.ok.inj hd
            by_cases ho : origin (g.bpose f) = 0
            · refine ⟨(d', ls ++ []), fs, by simp only [linesEv, hd0, hc, bind, Except.bind, no_line ho, pure, Except.pure], ?_⟩
              rw [List.append_nil]
              refine h.same hgood (hx d.nodes.length (by rw [← hd1]; rfl)) ⟨_, by rw [← hd1]; rfl⟩ ?_
              intro f'
              rw [hA]
              constructor
              · rintro ⟨rfl | a, b⟩
                · exact absurd ho b.2
                · exact ⟨a, b⟩
              · rintro ⟨a, b⟩; exact ⟨.inr a, b⟩
            · obtain ⟨X, hX, hseen⟩ := line_at hs hr1 (hr2 hm') ho p
              refine ⟨(d', ls ++ [⟨p, X⟩]), fs ++ [f], by simp only [linesEv, hd0, hc, bind, Except.bind, hX, pure, Except.pure], ?_⟩
              refine h.more hgood (hx d.nodes.length (by rw [← hd1]; rfl)) ⟨_, by rw [← hd1]; rfl⟩ hA hout hm' ho ?_
              refine ⟨g.bodyPose (o.subBody f), ?_, hseen⟩
              rw [← hd1]
              exact hpd.append
    | shape s =>
      refine keep rfl ?_ rfl
      obtain ⟨i, hi, _⟩ := hgood0.node (hneed (o.shapeFrame s) (by simp [dneed]))
      simp only [drawEv, drawReg, hi, bind, Except.bind, pure, Except.pure] at hd
      cases hd; rfl
    | joint j => exact keep rfl (Except.ok.inj hd).symm rfl
    | con c => exact keep rfl (Except.ok.inj hd).symm rfl
    | ctrl c => exact keep rfl (Except.ok.inj hd).symm rfl
    | other => exact keep rfl (Except.ok.inj hd).symm rfl
  | link f0 j f1 =>
    obtain ⟨m0, m1, hu, hpose⟩ := hl
    obtain ⟨p, hp, hpd⟩ := hgood0.node (hneed f0 (by simp [dneed]))
    have hd0 := hd
    cases f1 with
    | body b =>
      have hc : constFrames o g flat d (.link f0 j (.body b)) = .ok [] := rfl
      refine ⟨(d', ls ++ []), fs, by simp only [linesEv, hd0, hc, bind, Except.bind, addLines, pure, Except.pure], ?_⟩
      rw [List.append_nil]
      have hfn : d'.frameNodes = PDict.set d.frameNodes (.body b) d.nodes.length ∧ ∃ l, d'.nodes = d.nodes ++ l := by
        by_cases hf : flat = true
        · simp only [drawEv, drawLink, hf, if_true] at hd
          cases hd; exact ⟨rfl, _, rfl⟩
        · simp only [drawEv, drawLink, hf, hp, bind, Except.bind, if_false, pure, Except.pure] at hd
          cases hd; exact ⟨rfl, _, rfl⟩
      refine h.same hgood ?_ hfn.2 ?_
      · intro f' hf'
        rw [hfn.1] at hf'
        rcases isSome_set hf' with rfl | hf'
        · simp [dgive]
        · exact List.mem_append_right _ (hex0 _ hf')
      · intro f'; simp [dgive]
    | sub f =>
      have hm := m1 f rfl
      obtain ⟨hr1, hr2⟩ := hr
      have hout : FrameRef.sub f ∉ A := fun hin => hnew f0 j (.sub f) rfl (.sub f) hin rfl
      have hA : ∀ f', FrameRef.sub f' ∈ dgive o (.link f0 j (.sub f)) ++ A ↔ f' = f ∨ FrameRef.sub f' ∈ A := by
        intro f'; simp [dgive]
      have hfn : (∃ i k, d'.frameNodes = PDict.set (PDict.set d.frameNodes (.body (o.subBody f)) i) (.sub f) k) ∧ (∃ l, d'.nodes = d.nodes ++ l) ∧
          (if flat then PDict.get? d'.frameNodes (.body (o.subBody f)) = some d.nodes.length else PDict.get? d'.frameNodes (.sub f) = some d.nodes.length) := by
        by_cases hf : flat = true
        · simp only [drawEv, drawLink, hf, hm, if_true] at hd
          have hd1 := Except.ok.inj hd
          rw [← hd1]
          refine ⟨⟨_, _, rfl⟩, ⟨_, List.append_assoc _ _ _⟩, ?_⟩
          rw [if_pos hf]
          simp [DSt.bind, pget_set]
        · simp only [drawEv, drawLink, hf, hm, hp, bind, Except.bind, if_false, pure, Except.pure] at hd
          have hd1 := Except.ok.inj hd
          rw [← hd1]
          refine ⟨⟨_, _, rfl⟩, ⟨_, List.append_assoc _ _ _⟩, ?_⟩
          rw [if_neg hf]
          simp [DSt.bind, pget_set]
      obtain ⟨⟨i, k, hfn⟩, hn, hget⟩ := hfn
      have hx : ∀ f', (PDict.get? d'.frameNodes f').isSome → f' ∈ dgive o (.link f0 j (.sub f)) ++ A := by
        intro f' hf'
        rw [hfn] at hf'
        rcases isSome_set hf' with rfl | hf'
        · simp [dgive]
        · rcases isSome_set hf' with rfl | hf'
          · simp [dgive, Objs.bodyOf]
          · exact List.mem_append_right _ (hex0 _ hf')
      -- the constant pose and the place of its parent
      obtain ⟨B, P, hc, hB, hP, hPn, hends, hzero⟩ : ∃ B P : Mat4, constFrames o g flat d (.link f0 j (.sub f)) = .ok [(d.nodes.length, B)] ∧ IsRigid B ∧ IsRigid P ∧
          DrawnAt d'.nodes d.nodes.length P ∧ between (origin P) (origin (P * B)) = between (origin (g.bodyPose (o.subBody f))) (origin (poseOf o g (.sub f))) ∧
          (origin B = 0 ↔ origin (g.bpose f) = 0) := by
        by_cases hf : flat = true
        · rw [if_pos hf] at hget
          refine ⟨g.bpose f, g.bodyPose (o.subBody f), by simp only [constFrames, hf, if_true], hr2, hr1, hgood.placed _ _ hget, rfl, Iff.rfl⟩
        · rw [if_neg hf] at hget
          have hpl := hgood.placed _ _ hget
          have hinv : (g.bpose f)⁻¹ = invBody (g.bpose f) := Matrix.inv_eq_right_inv hr2.mul_invBody
          refine ⟨(g.bpose f)⁻¹, poseOf o g (.sub f), by simp only [constFrames, hf, if_false]; rfl, ?_, hr1.mul hr2, ?_, ?_, ?_⟩
          · rw [hinv]; exact hr2.invBody
          · simpa [drawnPose, hm, poseOf, bposeOf, Objs.bodyOf] using hpl
          · rw [show poseOf o g (.sub f) = g.bodyPose (o.subBody f) * g.bpose f from rfl, Matrix.mul_nonsing_inv_cancel_right _ _ hr2.isUnit_det]
            exact between_comm _ _
          · rw [hinv]
            constructor
            · intro h0
              have := origin_mul (P := g.bpose f) hr2.invBody
              rw [hr2.mul_invBody, h0, ← origin_toGround] at this
              rw [← this]
              funext i; fin_cases i <;> rfl
            · intro h0
              have := origin_mul (P := invBody (g.bpose f)) hr2
              rw [hr2.invBody_mul, h0, ← origin_toGround] at this
              rw [← this]
              funext i; fin_cases i <;> rfl
      by_cases ho : origin (g.bpose f) = 0
      · refine ⟨(d', ls ++ []), fs, by simp only [linesEv, hd0, hc, bind, Except.bind, no_line (hzero.mpr ho), pure, Except.pure], ?_⟩
        rw [List.append_nil]
        refine h.same hgood hx hn ?_
        intro f'
        rw [hA]
        constructor
        · rintro ⟨rfl | a, b⟩
          · exact absurd ho b.2
          · exact ⟨a, b⟩
        · rintro ⟨a, b⟩; exact ⟨.inr a, b⟩
      · obtain ⟨X, hX, hseen⟩ := line_at hs hP hB (fun h => ho (hzero.mp h)) d.nodes.length
        refine ⟨(d', ls ++ [⟨d.nodes.length, X⟩]), fs ++ [f], by simp only [linesEv, hd0, hc, bind, Except.bind, hX, pure, Except.pure], ?_⟩
        exact h.more hgood hx hn hA hout hm ho ⟨P, hPn, hseen.trans hends⟩

lemma lines_all {o : Objs} {g : Geo} {flat : Bool} {argsort : Vec3 → Equiv.Perm (Fin 3)} (hs : ∀ z, IsArgsortAbs z (argsort z)) (l : List Ev) :
    ∀ {A : List FrameRef} {fs : List ℕ} {s : DSt × List LineNode}, LInv o g flat A fs s → DOrd o A l → DNew o A l → (∀ e ∈ l, LinkOk o g e) →
    (∀ e ∈ l, LineOk o g e) → ∃ s' fs', l.foldlM (linesEv o g flat argsort) s = .ok s' ∧ LInv o g flat (dafter o A l) fs' s' := by
  induction l with
  | nil => intro A fs s h _ _ _ _; exact ⟨s, fs, rfl, h⟩
  | cons e l ih =>
    intro A fs s h ho hn hl hr
    obtain ⟨s1, fs1, e1, h1⟩ := lines_step hs h ho.1 (hl e List.mem_cons_self) hn.1 (hr e List.mem_cons_self)
    obtain ⟨s2, fs2, e2, h2⟩ := ih h1 ho.2 hn.2 (fun e he => hl e (List.mem_cons_of_mem _ he)) (fun e he => hr e (List.mem_cons_of_mem _ he))
    refine ⟨s2, fs2, ?_, h2⟩
    simp only [List.foldlM_cons, e1, bind, Except.bind]
    exact e2

/-- **C125.** Whatever the world built through the API, whose poses are rigid and up to date, drawing it with the Daenim
driver goes through in both modes; there is exactly one line per fixed frame away from the origin of its body, and what a
viewer sees of it is the segment from the origin of the body to the origin of the frame. -/
theorem C125_links {o : Objs} {lim gr : ℕ} {ops : List Op} (hh : AllowedHistory o lim (World.new gr) ops) {w : World}
    (hw : w = runAll o lim (World.new gr) ops) {F : Forest (FrameRef × ℕ × FrameRef) ℕ} (hF : IsTree o w F) {lim' : ℕ}
    (hl : depth F ≤ lim') (g : Geo) (lk : FrameRef × ℕ × FrameRef → Link) (hg : GeoOk o g w.ground F lk)
    (hb : ∀ b ∈ w.ground :: F.bodies, IsRigid (g.bodyPose b)) (hf : ∀ f ∈ w.subframes, g.moving f = false → IsRigid (g.bpose f)) (flat : Bool)
    {argsort : Vec3 → Equiv.Perm (Fin 3)} (hs : ∀ z, IsArgsortAbs z (argsort z)) :
    ∃ calls s fs, parse o w lim' = .ok calls ∧ drawLines o g flat argsort calls = .ok s ∧ fs.Nodup ∧ (∀ f, f ∈ fs ↔ Off o g w F f) ∧
      List.Forall₂ (fun f n => ∃ H, DrawnAt s.1.nodes n.parent H ∧
        lineSeen (H * n.xform) = between (origin (g.bodyPose (o.subBody f))) (origin (poseOf o g (.sub f)))) fs s.2 := by
  have hRI : RInv o w := hw ▸ RInv.runAll (RInv.new o gr) ops
  have hI : GInv o w := hw ▸ GInv.runAll (GInv.new o gr) hh
  have hk := hRI.shape_known
  have hcalls := C59_calls hw hF hl
  obtain ⟨_, hcs, _⟩ := C59_complete hw hF hl hcalls
  have hcons := poses_consistent (g := g) hF.unfolds hg.frame0 hg.frame1 hg.joint hg.rigid (by rw [hg.ground]; exact hg.pose)
  obtain ⟨nG, nB⟩ := List.nodup_cons.mp hF.bodies_nodup
  set rest := bodyCalls o w w.ground ++ treeCalls o w F ++
      w.constraints.map (fun c => Graph.Ev.reg (.con c)) ++ w.controllers.map (fun c => Graph.Ev.reg (.ctrl c)) with hrest
  have hrest' : Graph.Ev.initParse w.ground :: bodyCalls o w w.ground ++ treeCalls o w F ++
      w.constraints.map (fun c => Graph.Ev.reg (.con c)) ++ w.controllers.map (fun c => Graph.Ev.reg (.ctrl c)) = .initParse w.ground :: rest := by
    simp [hrest]
  rw [hrest'] at hcalls hcs
  have hord : DOrd o [.body w.ground] rest := by
    rw [hrest]
    refine DOrd.append (DOrd.append (DOrd.append (bodyCalls_dord List.mem_cons_self)
      (treeCalls_dord hI hk hF.unfolds (fun _ h => h) ?_ ?_)) (DOrd.flat ?_)) (DOrd.flat ?_)
    · rw [mem_dafter]; exact .inl List.mem_cons_self
    · intro f hf hfb
      rw [mem_dafter]
      exact .inr ⟨.reg (.frame (.sub f)), (mem_bodyCalls hk).mpr (.inr (.inl ⟨f, hf, hfb, rfl⟩)), by simp [dgive]⟩
    · intro e he
      obtain ⟨c, _, rfl⟩ := List.mem_map.mp he
      simp [dneed]
    · intro e he
      obtain ⟨c, _, rfl⟩ := List.mem_map.mp he
      simp [dneed]
  have hnew : DNew o [.body w.ground] rest := by
    rw [hrest]
    refine DNew.append (DNew.append (DNew.append (DNew.noLink (bodyCalls_noLink hk)) (treeCalls_dnew hk hF.unfolds nB ?_)) (DNew.noLink ?_)) (DNew.noLink ?_)
    · intro r hr
      rcases mem_dafter.mp hr with hr | ⟨e, he, hr⟩
      · rw [List.mem_singleton] at hr
        rw [hr]; exact nG
      · rw [bodyCalls_give hk he hr]; exact nG
    · intro e he f0 j f1 h
      obtain ⟨c, _, rfl⟩ := List.mem_map.mp he
      cases h
    · intro e he f0 j f1 h
      obtain ⟨c, _, rfl⟩ := List.mem_map.mp he
      cases h
  have bodyLinkOk : ∀ b, ∀ e ∈ bodyCalls o w b, LinkOk o g e := by
    intro b e he
    rcases (mem_bodyCalls hk).mp he with rfl | ⟨_, _, _, rfl⟩ | ⟨_, _, _, rfl⟩ <;> trivial
  have bodyLineOk : ∀ b ∈ w.ground :: F.bodies, ∀ e ∈ bodyCalls o w b, LineOk o g e := by
    intro b hbm e he
    rcases (mem_bodyCalls hk).mp he with rfl | ⟨f, h1, h2, rfl⟩ | ⟨_, _, _, rfl⟩
    · trivial
    · exact ⟨h2 ▸ hb b hbm, hf f h1⟩
    · trivial
  have hlink : ∀ e ∈ rest, LinkOk o g e ∧ LineOk o g e := by
    intro e he
    simp only [hrest, List.mem_append] at he
    rcases he with ((he | he) | he) | he
    · exact ⟨bodyLinkOk _ e he, bodyLineOk _ List.mem_cons_self e he⟩
    · rcases mem_treeCalls.mp he with ⟨l, hl, rfl⟩ | ⟨b, hbm, he⟩
      · refine ⟨⟨(hg.fixed l hl).1, (hg.fixed l hl).2, fun x hx => by have := hg.rigid l hl; rw [hx] at this; exact this.isUnit_det, hcons l hl⟩, ?_⟩
        have hbody := (unfolds_ends hF.unfolds hl).2.2.2
        have hrig := hg.rigid l hl
        rcases l with ⟨f0, j, f1⟩
        cases f1 with
        | body b => trivial
        | sub f => exact ⟨hb _ (List.mem_cons_of_mem _ hbody), hrig⟩
      · exact ⟨bodyLinkOk b e he, bodyLineOk b (List.mem_cons_of_mem _ hbm) e he⟩
    · obtain ⟨c, _, rfl⟩ := List.mem_map.mp he; exact ⟨trivial, trivial⟩
    · obtain ⟨c, _, rfl⟩ := List.mem_map.mp he; exact ⟨trivial, trivial⟩
  have h0 : LInv o g flat [.body w.ground] [] (initParse w.ground, []) := by
    refine ⟨⟨rfl, by simp [initParse, pget_cons], ?_⟩, ?_, List.nodup_nil, ?_, .nil⟩
    · intro f i hi
      simp only [initParse, pget_cons, pget_nil] at hi
      split at hi
      · rename_i he
        simp only [Option.some.injEq] at hi
        rw [← he, ← hi]
        have : DrawnAt (initParse w.ground).nodes 0 1 := .root rfl
        simpa [drawnPose, hg.ground] using this
      · cases hi
    · intro f hf
      simp only [initParse, pget_cons, pget_nil] at hf
      split at hf
      · rename_i he; simp [he]
      · cases hf
    · simp
  obtain ⟨s, fs, hd, hinv⟩ := lines_all hs rest h0 hord hnew (fun e he => (hlink e he).1) (fun e he => (hlink e he).2)
  refine ⟨_, s, fs, hcalls, ?_, hinv.nodup, ?_, hinv.lines⟩
  · rw [drawLines, List.foldlM_cons]
    exact hd
  · intro f
    rw [hinv.mem]
    have key : FrameRef.sub f ∈ dafter o [.body w.ground] rest ↔ f ∈ w.subframes ∧ o.subBody f ∈ w.ground :: F.bodies := by
      constructor
      · intro h
        rcases mem_dafter.mp h with h | ⟨e, he, h⟩
        · simp at h
        · simp only [hrest, List.mem_append] at he
          have viaBody : ∀ b ∈ w.ground :: F.bodies, e ∈ bodyCalls o w b → f ∈ w.subframes ∧ o.subBody f ∈ w.ground :: F.bodies := by
            intro b hbm he
            rcases (mem_bodyCalls hk).mp he with rfl | ⟨f', h1, h2, rfl⟩ | ⟨_, _, _, rfl⟩
            · simp [dgive] at h
            · simp only [dgive, List.mem_singleton, FrameRef.sub.injEq] at h
              rw [h]; exact ⟨h1, h2 ▸ hbm⟩
            · simp [dgive] at h
          rcases he with ((he | he) | he) | he
          · exact viaBody _ List.mem_cons_self he
          · rcases mem_treeCalls.mp he with ⟨l, hl, rfl⟩ | ⟨b, hbm, he⟩
            · have hbody := (unfolds_ends hF.unfolds hl).2.2.2
              have hkn := (tree_known hI hF.unfolds (fun _ h => h) l hl)
              simp only [dgive, List.mem_cons, List.not_mem_nil, or_false] at h
              rcases h with h | h
              · rw [← h] at hbody hkn
                exact ⟨hkn, List.mem_cons_of_mem _ hbody⟩
              · cases h
            · exact viaBody b (List.mem_cons_of_mem _ hbm) he
          · obtain ⟨c, _, rfl⟩ := List.mem_map.mp he; simp [dgive] at h
          · obtain ⟨c, _, rfl⟩ := List.mem_map.mp he; simp [dgive] at h
      · intro h
        have hm := (hcs f).mpr h
        rw [List.mem_cons] at hm
        rcases hm with hm | hm
        · cases hm
        · rw [mem_dafter]
          exact .inr ⟨_, hm, by simp [dgive]⟩
    rw [key]
    constructor
    · rintro ⟨⟨a, b⟩, c, d⟩; exact ⟨a, b, c, d⟩
    · rintro ⟨a, b, c, d⟩; exact ⟨⟨a, b⟩, c, d⟩

/-! ### A world: a body one metre away from the ground, carrying a fixed subframe two metres to its left -/

noncomputable def exLG : Geo := ⟨fun _ => false, fun _ => mkH 1 ![0, 2, 0], fun _ => exDT, fun b => if b = 0 then 1 else exDT, fun _ => true⟩

/-- Beside C125: the drawing has one line, and the viewer sees a segment from `(1, 0, 0)` to `(1, 2, 0)`. -/
theorem C125_example {argsort : Vec3 → Equiv.Perm (Fin 3)} (hs : ∀ z, IsArgsortAbs z (argsort z)) (flat : Bool) :
    ∃ calls s n H, parse exDO (runAll exDO 9 (World.new 0) exDOps) 9 = .ok calls ∧ drawLines exDO exLG flat argsort calls = .ok s ∧ s.2 = [n] ∧
      DrawnAt s.1.nodes n.parent H ∧ lineSeen (H * n.xform) = between ![1, 0, 0] ![1, 2, 0] := by
  have e : invBody (1 : Mat4) = 1 := by
    have := isRigid_one.mul_invBody
    rwa [Matrix.one_mul] at this
  have hg : GeoOk exDO exLG 0 exDF exDL := by
    refine ⟨?_, ?_, ?_, ?_, rfl, fun l hl => by simp [exDF, Forest.links] at hl; subst hl; exact isRigid_one, ?_⟩
    · intro l hl; simp [exDF, Forest.links] at hl; subst hl; rfl
    · intro l hl; simp [exDF, Forest.links] at hl; subst hl; rfl
    · intro l hl; simp [exDF, Forest.links] at hl; subst hl; rfl
    · intro x hx
      simp only [worldGeometric, exDF, Forest.map, updateGeometric, List.append_nil, List.mem_singleton] at hx
      subst hx
      simp [exLG, geoStep, relPose, exDL, e]
    · intro l hl; simp [exDF, Forest.links] at hl; subst hl; simp
  have hT : IsRigid exDT := isRigid_mkH IsRotation.one
  have hB : IsRigid (mkH 1 ![0, 2, 0]) := isRigid_mkH IsRotation.one
  obtain ⟨calls, s, fs, h1, h2, h3, h4, h5⟩ := C125_links exD_allowed rfl exD_tree (lim' := 9) (by decide) exLG exDL hg
    (by
      intro b _
      change IsRigid (if b = 0 then 1 else exDT)
      split
      · exact isRigid_one
      · exact hT)
    (fun f _ _ => hB) flat hs
  have hoff : ∀ f, Off exDO exLG (runAll exDO 9 (World.new 0) exDOps) exDF f ↔ f = 0 := by
    intro f
    constructor
    · intro h
      have : f ∈ [0] := h.known
      simpa using this
    · rintro rfl
      refine ⟨by change 0 ∈ [0]; simp, by decide, rfl, ?_⟩
      intro h
      have := congrFun h 1
      simp [origin, exLG, mkH] at this
  have hfs : fs = [0] := by
    have hm : ∀ f, f ∈ fs ↔ f = 0 := fun f => (h4 f).trans (hoff f)
    rcases fs with _ | ⟨a, _ | ⟨b, fs⟩⟩
    · exact absurd ((hm 0).mpr rfl) List.not_mem_nil
    · rw [(hm a).mp List.mem_cons_self]
    · have ha := (hm a).mp List.mem_cons_self
      have hb := (hm b).mp (List.mem_cons_of_mem _ List.mem_cons_self)
      rw [ha, hb] at h3
      simp at h3
  rw [hfs] at h5
  obtain ⟨d, ls⟩ := s
  cases h5 with
  | @cons _ n _ l hx hr =>
    cases hr
    obtain ⟨H, k1, k2⟩ := hx
    refine ⟨calls, _, n, H, h1, h2, rfl, k1, ?_⟩
    rw [k2]
    have e1 : origin (exLG.bodyPose (exDO.subBody 0)) = ![1, 0, 0] := by
      change origin exDT = _
      funext i; fin_cases i <;> simp [origin, exDT, mkH]
    have e2 : origin (poseOf exDO exLG (.sub 0)) = ![1, 2, 0] := by
      change origin (exDT * mkH 1 ![0, 2, 0]) = _
      rw [exDT, mkH_mul]
      funext i; fin_cases i <;> simp [origin, mkH]
    rw [e1, e2]

end Arboris
