import Verif.Model.Visu
import Verif.Props.Logger
import Mathlib.Tactic.Linarith
import Mathlib.Tactic.IntervalCases

/-!
# C67, C68: colours
-/

namespace Arboris
open Log Visu

/-! ### C67 -/

/-- real remainder modulo 6, in [0, 6) -/
noncomputable def Spec.mod6 (x : ℝ) : ℝ := x - 6 * ⌊x / 6⌋
/-- The usual closed form of the conversion: red, green and blue are `channel 5`, `channel 3`, `channel 1`. -/
noncomputable def Spec.channel (h s v n : ℝ) : ℝ :=
  let k := mod6 (n + h / 60)
  v - v * s * max 0 (min (min k (4 - k)) 1)

open Spec

lemma sector (x : ℝ) : ∃ (a i : ℤ) (f : ℝ), 0 ≤ i ∧ i < 6 ∧ 0 ≤ f ∧ f < 1 ∧ x = 6 * a + i + f ∧ ⌊x⌋ = 6 * a + i := by
  refine ⟨⌊x⌋ / 6, ⌊x⌋ % 6, Int.fract x, Int.emod_nonneg _ (by norm_num), Int.emod_lt_of_pos _ (by norm_num),
    Int.fract_nonneg x, Int.fract_lt_one x, ?_, (Int.mul_ediv_add_emod _ _).symm⟩
  have h1 := Int.self_sub_floor x
  have h2 : ((6 * (⌊x⌋ / 6) + ⌊x⌋ % 6 : ℤ) : ℝ) = ⌊x⌋ := by rw [Int.mul_ediv_add_emod]
  push_cast at h2
  linarith

lemma mod6_eq {x : ℝ} {b j : ℤ} {f : ℝ} (hj : 0 ≤ j) (hj6 : j < 6) (hf : 0 ≤ f) (hf1 : f < 1) (h : x = 6 * b + j + f) :
    mod6 x = j + f := by
  have : ⌊x / 6⌋ = b := by
    rw [Int.floor_eq_iff]
    have h1 : (j : ℝ) ≤ 5 := by exact_mod_cast (by omega : j ≤ 5)
    have h2 : (0 : ℝ) ≤ j := by exact_mod_cast hj
    constructor
    · rw [le_div_iff₀ (by norm_num)]; linarith
    · rw [div_lt_iff₀ (by norm_num)]; linarith
  rw [mod6, this, h]; ring

lemma channel_eq {h s v n : ℝ} {b j : ℤ} {f : ℝ} (hj : 0 ≤ j) (hj6 : j < 6) (hf : 0 ≤ f) (hf1 : f < 1)
    (e : n + h / 60 = 6 * b + j + f) : channel h s v n =
      if j = 0 then v * (1 - f * s) else if j = 1 ∨ j = 2 then v * (1 - s) else if j = 3 then v * (1 - (1 - f) * s) else v := by
  unfold channel
  rw [mod6_eq hj hj6 hf hf1 e]
  interval_cases j
  · have : max (0:ℝ) (min (min (((0:ℤ):ℝ) + f) (4 - (((0:ℤ):ℝ) + f))) 1) = f := by
      push_cast
      rw [min_eq_left (a := 0 + f) (by linarith), min_eq_left (by linarith), max_eq_right (by linarith), zero_add]
    simp only [this, if_true]; ring
  · have : max (0:ℝ) (min (min (((1:ℤ):ℝ) + f) (4 - (((1:ℤ):ℝ) + f))) 1) = 1 := by
      push_cast
      rw [min_eq_left (a := 1 + f) (by linarith), min_eq_right (by linarith), max_eq_right (by linarith)]
    simp only [this]; norm_num; ring
  · have : max (0:ℝ) (min (min (((2:ℤ):ℝ) + f) (4 - (((2:ℤ):ℝ) + f))) 1) = 1 := by
      push_cast
      rw [min_eq_right (a := 2 + f) (by linarith), min_eq_right (by linarith), max_eq_right (by linarith)]
    simp only [this]; norm_num; ring
  · have : max (0:ℝ) (min (min (((3:ℤ):ℝ) + f) (4 - (((3:ℤ):ℝ) + f))) 1) = 1 - f := by
      push_cast
      rw [min_eq_right (a := 3 + f) (by linarith), min_eq_left (by linarith), max_eq_right (by linarith)]; ring
    simp only [this]; norm_num; ring
  · have : max (0:ℝ) (min (min (((4:ℤ):ℝ) + f) (4 - (((4:ℤ):ℝ) + f))) 1) = 0 := by
      push_cast
      rw [min_eq_right (a := 4 + f) (by linarith), min_eq_left (by linarith), max_eq_left (by linarith)]
    simp only [this]; norm_num
  · have : max (0:ℝ) (min (min (((5:ℤ):ℝ) + f) (4 - (((5:ℤ):ℝ) + f))) 1) = 0 := by
      push_cast
      rw [min_eq_right (a := 5 + f) (by linarith), min_eq_left (by linarith), max_eq_left (by linarith)]
    simp only [this]; norm_num

lemma hsv_eq {h s v : ℝ} {a i : ℤ} {f : ℝ} (hi : 0 ≤ i) (hi6 : i < 6) (hx : h / 60 = 6 * a + i + f) (hfl : ⌊h / 60⌋ = 6 * a + i) :
    hsvToRgb h s v =
      if i = 0 then (v, v * (1 - (1 - f) * s), v * (1 - s)) else if i = 1 then (v * (1 - f * s), v, v * (1 - s))
      else if i = 2 then (v * (1 - s), v, v * (1 - (1 - f) * s)) else if i = 3 then (v * (1 - s), v * (1 - f * s), v)
      else if i = 4 then (v * (1 - (1 - f) * s), v * (1 - s), v) else (v, v * (1 - s), v * (1 - f * s)) := by
  have hm : ⌊h / 60⌋ % 6 = i := by rw [hfl]; omega
  have hf : h / 60 - ⌊h / 60⌋ = f := by rw [hfl, hx]; push_cast; ring
  simp only [hsvToRgb, hm, hf]

/-- C67: for all real `h`, `s`, `v` the conversion is the closed form. -/
theorem C67_formula (h s v : ℝ) : hsvToRgb h s v = (channel h s v 5, channel h s v 3, channel h s v 1) := by
  obtain ⟨a, i, f, hi, hi6, hf, hf1, hx, hfl⟩ := sector (h / 60)
  rw [hsv_eq hi hi6 hx hfl]
  interval_cases i
  · rw [channel_eq (n := 5) (b := a) (j := 5) (f := f) (by norm_num) (by norm_num) hf hf1 (by rw [hx]; push_cast; ring),
      channel_eq (n := 3) (b := a) (j := 3) (f := f) (by norm_num) (by norm_num) hf hf1 (by rw [hx]; push_cast; ring),
      channel_eq (n := 1) (b := a) (j := 1) (f := f) (by norm_num) (by norm_num) hf hf1 (by rw [hx]; push_cast; ring)]
    norm_num
  · rw [channel_eq (n := 5) (b := a + 1) (j := 0) (f := f) (by norm_num) (by norm_num) hf hf1 (by rw [hx]; push_cast; ring),
      channel_eq (n := 3) (b := a) (j := 4) (f := f) (by norm_num) (by norm_num) hf hf1 (by rw [hx]; push_cast; ring),
      channel_eq (n := 1) (b := a) (j := 2) (f := f) (by norm_num) (by norm_num) hf hf1 (by rw [hx]; push_cast; ring)]
    norm_num
  · rw [channel_eq (n := 5) (b := a + 1) (j := 1) (f := f) (by norm_num) (by norm_num) hf hf1 (by rw [hx]; push_cast; ring),
      channel_eq (n := 3) (b := a) (j := 5) (f := f) (by norm_num) (by norm_num) hf hf1 (by rw [hx]; push_cast; ring),
      channel_eq (n := 1) (b := a) (j := 3) (f := f) (by norm_num) (by norm_num) hf hf1 (by rw [hx]; push_cast; ring)]
    norm_num
  · rw [channel_eq (n := 5) (b := a + 1) (j := 2) (f := f) (by norm_num) (by norm_num) hf hf1 (by rw [hx]; push_cast; ring),
      channel_eq (n := 3) (b := a + 1) (j := 0) (f := f) (by norm_num) (by norm_num) hf hf1 (by rw [hx]; push_cast; ring),
      channel_eq (n := 1) (b := a) (j := 4) (f := f) (by norm_num) (by norm_num) hf hf1 (by rw [hx]; push_cast; ring)]
    norm_num
  · rw [channel_eq (n := 5) (b := a + 1) (j := 3) (f := f) (by norm_num) (by norm_num) hf hf1 (by rw [hx]; push_cast; ring),
      channel_eq (n := 3) (b := a + 1) (j := 1) (f := f) (by norm_num) (by norm_num) hf hf1 (by rw [hx]; push_cast; ring),
      channel_eq (n := 1) (b := a) (j := 5) (f := f) (by norm_num) (by norm_num) hf hf1 (by rw [hx]; push_cast; ring)]
    norm_num
  · rw [channel_eq (n := 5) (b := a + 1) (j := 4) (f := f) (by norm_num) (by norm_num) hf hf1 (by rw [hx]; push_cast; ring),
      channel_eq (n := 3) (b := a + 1) (j := 2) (f := f) (by norm_num) (by norm_num) hf hf1 (by rw [hx]; push_cast; ring),
      channel_eq (n := 1) (b := a + 1) (j := 0) (f := f) (by norm_num) (by norm_num) hf hf1 (by rw [hx]; push_cast; ring)]
    norm_num

/-- C67: for all real hues and all `s`, `v` in [0,1], the components are in [0,1]; the largest is `v` and the smallest
`v(1-s)`; the hue has period 360. -/
theorem C67_range (h s v : ℝ) (hs : 0 ≤ s) (hs1 : s ≤ 1) (hv : 0 ≤ v) (hv1 : v ≤ 1) :
    let c := hsvToRgb h s v
    (0 ≤ c.1 ∧ c.1 ≤ 1 ∧ 0 ≤ c.2.1 ∧ c.2.1 ≤ 1 ∧ 0 ≤ c.2.2 ∧ c.2.2 ≤ 1) ∧
    max (max c.1 c.2.1) c.2.2 = v ∧ min (min c.1 c.2.1) c.2.2 = v * (1 - s) ∧ hsvToRgb (h + 360) s v = c := by
  obtain ⟨a, i, f, hi, hi6, hf, hf1, hx, hfl⟩ := sector (h / 60)
  have hper : hsvToRgb (h + 360) s v = hsvToRgb h s v := by
    rw [C67_formula, C67_formula]
    have : ∀ n, channel (h + 360) s v n = channel h s v n := by
      intro n
      unfold channel
      have : mod6 (n + (h + 360) / 60) = mod6 (n + h / 60) := by
        unfold mod6
        rw [show (n + (h + 360) / 60) / 6 = (n + h / 60) / 6 + ((1 : ℤ) : ℝ) by push_cast; ring, Int.floor_add_intCast]
        push_cast; ring
      rw [this]
    rw [this, this, this]
  refine ⟨?_, ?_, ?_, hper⟩
  all_goals
    have e1 : 0 ≤ v * s := mul_nonneg hv hs
    have e2 : v * s ≤ v := by nlinarith
    have e3 : 0 ≤ v * s * f := mul_nonneg e1 hf
    have e4 : v * s * f ≤ v * s := by nlinarith
    have p1 : v * (1 - s) ≤ v := by nlinarith
    have p0 : 0 ≤ v * (1 - s) := by nlinarith
    have q1 : v * (1 - f * s) ≤ v := by nlinarith
    have q0 : v * (1 - s) ≤ v * (1 - f * s) := by nlinarith
    have t1 : v * (1 - (1 - f) * s) ≤ v := by nlinarith
    have t0 : v * (1 - s) ≤ v * (1 - (1 - f) * s) := by nlinarith
    rw [hsv_eq hi hi6 hx hfl]
  · interval_cases i <;> norm_num <;> refine ⟨?_, ?_, ?_, ?_, ?_, ?_⟩ <;> linarith
  · interval_cases i <;> norm_num <;> simp [max_eq_left, max_eq_right, p1, q1, t1]
  · interval_cases i <;> norm_num <;> simp [min_eq_left, min_eq_right, p1, q0, t0]

/-! ### C68 -/

/-- a call made by the user or by a drawer on a colour generator -/
inductive Spec.Req where
  | get (t : Thing)
  | set (k : CKey) (c : Color)

/-- one call -/
noncomputable def Spec.doReq (names : Thing → Option String) (g : Gen) : Req → Except PyErr Gen
  | .get t => (getColor names g t).map Prod.snd
  | .set k c => setColor g k c

/-- a history of calls -/
noncomputable def Spec.doReqs (names : Thing → Option String) (g : Gen) (l : List Req) : Except PyErr Gen :=
  l.foldlM (doReq names) g

/-- the keys under which a user may impose the colour of a thing -/
def Spec.keysOf (names : Thing → Option String) : Thing → List CKey
  | .body b => [.obj (.body b), .name (names (.body b))]
  | .part x p => [.obj (.part x p), .name (names (.part x p)), .obj (.body p), .name (names (.body p))]

/-- components between 0 and 1 -/
def Spec.InCube (c : Color) : Prop := 0 ≤ c.1 ∧ c.1 ≤ 1 ∧ 0 ≤ c.2.1 ∧ c.2.1 ≤ 1 ∧ 0 ≤ c.2.2 ∧ c.2.2 ≤ 1

/-- the colour already determined for a thing -/
def resolve (names : Thing → Option String) (g : Gen) : Thing → Option Color
  | .body b => lookup names g (.body b)
  | .part x p => match lookup names g (.part x p) with
    | some c => some c
    | none => lookup names g (.body p)

lemma getColor_of_resolve {names : Thing → Option String} {g : Gen} {t : Thing} {c : Color} (h : resolve names g t = some c) :
    getColor names g t = .ok (c, g) := by
  cases t with
  | body b => simp only [resolve] at h; simp [getColor, getBody, h]
  | part x p =>
    simp only [resolve] at h
    simp only [getColor]
    cases hl : lookup names g (.part x p) with
    | some c' => rw [hl] at h; simp at h; simp [h]
    | none => rw [hl] at h; simp at h; simp [getBody, h]

lemma lookup_set {names : Thing → Option String} {g : Gen} {k : CKey} {c : Color} {t : Thing} (h1 : k ≠ .obj t) (h2 : k ≠ .name (names t)) :
    lookup names { g with map := PDict.set g.map k c } t = lookup names g t := by
  simp only [lookup, pget_set, if_neg (Ne.symm h1), if_neg (Ne.symm h2)]

lemma lookup_palette {names : Thing → Option String} {g : Gen} {pal : List Color} {t : Thing} :
    lookup names { g with palette := pal } t = lookup names g t := rfl

lemma generate_snd (g : Gen) : ∃ pal, (generate g).2 = { g with palette := pal } := by
  unfold generate
  cases g.palette.getLast? with
  | some c => exact ⟨_, rfl⟩
  | none => exact ⟨g.palette, rfl⟩

/-- What a request does: nothing, if the colour is determined; otherwise, the parent body gets a colour. -/
lemma getColor_cases {names : Thing → Option String} {g g' : Gen} {t : Thing} {c : Color} (h : getColor names g t = .ok (c, g')) :
    (resolve names g t = some c ∧ g' = g) ∨
    ∃ b pal, lookup names g (.body b) = none ∧ g' = ⟨pal, PDict.set g.map (.obj (.body b)) c⟩ ∧ resolve names g' t = some c := by
  have key : ∀ b, getBody names g b = .ok (c, g') → lookup names g (.body b) = none →
      ∃ pal, g' = ⟨pal, PDict.set g.map (.obj (.body b)) c⟩ := by
    intro b hb hn
    simp only [getBody, hn, setColor, bind, Except.bind] at hb
    obtain ⟨pal, hp⟩ := generate_snd g
    split at hb
    · cases hb
    · rename_i v hv
      split at hv
      · simp only [pure, Except.pure, Except.ok.injEq, Prod.mk.injEq] at hb
        simp only [Except.ok.injEq] at hv
        refine ⟨pal, ?_⟩
        rw [← hb.2, ← hv, hp, ← hb.1]
      · cases hv
  cases t with
  | body b =>
    simp only [getColor] at h
    cases hl : lookup names g (.body b) with
    | some c' =>
      simp only [getBody, hl, Except.ok.injEq, Prod.mk.injEq] at h
      exact .inl ⟨by simp [resolve, hl, h.1], h.2.symm⟩
    | none =>
      obtain ⟨pal, hp⟩ := key b h hl
      refine .inr ⟨b, pal, hl, hp, ?_⟩
      rw [hp]
      simp [resolve, lookup, pget_set]
  | part x p =>
    simp only [getColor] at h
    cases hl : lookup names g (.part x p) with
    | some c' =>
      simp only [hl, Except.ok.injEq, Prod.mk.injEq] at h
      exact .inl ⟨by simp [resolve, hl, h.1], h.2.symm⟩
    | none =>
      simp only [hl] at h
      cases hb : lookup names g (.body p) with
      | some c' =>
        simp only [getBody, hb, Except.ok.injEq, Prod.mk.injEq] at h
        exact .inl ⟨by simp [resolve, hl, hb, h.1], h.2.symm⟩
      | none =>
        obtain ⟨pal, hp⟩ := key p h hb
        refine .inr ⟨p, pal, hb, hp, ?_⟩
        rw [hp]
        have : lookup names ⟨pal, PDict.set g.map (.obj (.body p)) c⟩ (.part x p) = none := by
          rw [← hl]
          exact lookup_set (g := { g with palette := pal }) (by simp) (by simp)
        simp only [resolve, this]
        simp [lookup, pget_set]

lemma resolve_get {names : Thing → Option String} {g g' : Gen} {t t' : Thing} {c c' : Color} (h : resolve names g t = some c)
    (hg : getColor names g t' = .ok (c', g')) : resolve names g' t = some c := by
  rcases getColor_cases hg with ⟨_, rfl⟩ | ⟨b, pal, hb, rfl, _⟩
  · exact h
  · have hl : ∀ t, t ≠ .body b → lookup names ⟨pal, PDict.set g.map (.obj (.body b)) c'⟩ t = lookup names g t := by
      intro t ht
      exact lookup_set (g := { g with palette := pal }) (by simpa using Ne.symm ht) (by simp)
    cases t with
    | body b' =>
      have : Thing.body b' ≠ .body b := by
        rintro h1
        rw [h1] at h
        simp [resolve, hb] at h
      simp only [resolve, hl _ this]; exact h
    | part x p =>
      simp only [resolve, hl (.part x p) (by simp)] at h ⊢
      cases hx : lookup names g (.part x p) with
      | some c => rw [hx] at h; exact h
      | none =>
        rw [hx] at h
        simp only at h ⊢
        rw [hl, h]
        rintro h1
        rw [h1, hb] at h
        cases h

lemma resolve_set {names : Thing → Option String} {g g' : Gen} {t : Thing} {k : CKey} {c c' : Color} (h : resolve names g t = some c)
    (hk : k ∉ keysOf names t) (hg : setColor g k c' = .ok g') : resolve names g' t = some c := by
  simp only [setColor] at hg
  split at hg
  · simp only [Except.ok.injEq] at hg
    subst hg
    cases t with
    | body b =>
      simp only [keysOf, List.mem_cons, List.not_mem_nil, or_false, not_or] at hk
      simp only [resolve] at h ⊢
      rw [lookup_set hk.1 hk.2, h]
    | part x p =>
      simp only [keysOf, List.mem_cons, List.not_mem_nil, or_false, not_or] at hk
      simp only [resolve] at h ⊢
      rw [lookup_set hk.1 hk.2.1, lookup_set hk.2.2.1 hk.2.2.2, h]
  · cases hg

/-- C68: once the colour of a body, frame or shape has been given, every later request gives it again (and changes
nothing), after any history of requests and of `set_color` on other keys than those of the thing and of its body. -/
theorem C68_stable (names : Thing → Option String) (g g1 g2 : Gen) (t : Thing) (c : Color) (h : getColor names g t = .ok (c, g1))
    (hs : List Req) (hno : ∀ k c', Req.set k c' ∈ hs → k ∉ keysOf names t) (h2 : doReqs names g1 hs = .ok g2) :
    getColor names g2 t = .ok (c, g2) := by
  apply getColor_of_resolve
  have h1 : resolve names g1 t = some c := by
    rcases getColor_cases h with ⟨hr, rfl⟩ | ⟨_, _, _, _, hr⟩
    · exact hr
    · exact hr
  clear h
  induction hs generalizing g1 with
  | nil =>
    simp only [doReqs, List.foldlM_nil, pure, Except.pure, Except.ok.injEq] at h2
    rw [← h2]; exact h1
  | cons r hs ih =>
    simp only [doReqs, List.foldlM_cons, bind, Except.bind] at h2
    split at h2
    · cases h2
    · rename_i g' hg'
      refine ih g' (fun k c' hm => hno k c' (List.mem_cons_of_mem _ hm)) h2 ?_
      cases r with
      | get t' =>
        simp only [doReq, Except.map] at hg'
        split at hg'
        · cases hg'
        · rename_i v hv
          simp only [Except.ok.injEq] at hg'
          subst hg'
          exact resolve_get (c' := v.1) h1 hv
      | set k c' => exact resolve_set h1 (hno k c' List.mem_cons_self) hg'

/-- colours of the palette, in the order in which they are given -/
noncomputable def Spec.nthColor (nb k : ℕ) : Color :=
  if k < nb then hsvToRgb (360 / nb * ((nb - 1 - k : ℕ) : ℝ)) 0.9 0.9 else (1, 1, 1)

/-- body carrying a thing -/
def Spec.carrier : Thing → ℕ
  | .body b => b
  | .part _ p => p

/-- bodies in the order of their first request -/
def Spec.firstSeen (ts : List Thing) : List ℕ :=
  ts.foldl (fun acc t => if carrier t ∈ acc then acc else acc ++ [carrier t]) []

/-- requests, in order, giving the colours returned -/
noncomputable def Spec.askAll (names : Thing → Option String) : Gen → List Thing → Except PyErr (List Color × Gen)
  | g, [] => .ok ([], g)
  | g, t :: ts => do
    let (c, g) ← getColor names g t
    let (cs, g) ← askAll names g ts
    return (c :: cs, g)

lemma inCube_hsv (h : ℝ) : InCube (hsvToRgb h 0.9 0.9) :=
  (C67_range h 0.9 0.9 (by norm_num) (by norm_num) (by norm_num) (by norm_num)).1

lemma inCube_nth (nb k : ℕ) : InCube (nthColor nb k) := by
  unfold nthColor
  split
  · exact inCube_hsv _
  · simp [InCube]

/-- the state after the bodies `seen` have been given colours -/
def genAt (g : Gen) (nb : ℕ) (seen : List ℕ) : Prop :=
  g.palette = ((List.range nb).map fun k : ℕ => hsvToRgb (360 / nb * k) 0.9 0.9).take (nb - seen.length) ∧
  (∀ b, PDict.get? g.map (.obj (.body b)) = if b ∈ seen then some (nthColor nb (seen.idxOf b)) else none) ∧
  (∀ x p, PDict.get? g.map (.obj (.part x p)) = none) ∧ ∀ s, PDict.get? g.map (.name s) = none

lemma generate_at {g : Gen} {nb : ℕ} {seen : List ℕ} (h : genAt g nb seen) :
    generate g = (nthColor nb seen.length,
      { g with palette := ((List.range nb).map fun k : ℕ => hsvToRgb (360 / nb * k) 0.9 0.9).take (nb - (seen.length + 1)) }) := by
  obtain ⟨hp, _⟩ := h
  by_cases hlt : seen.length < nb
  · have hd : nb - seen.length = (nb - (seen.length + 1)) + 1 := by omega
    have hn : nb - (seen.length + 1) < nb := by omega
    have e : g.palette = ((List.range nb).map fun k : ℕ => hsvToRgb (360 / nb * k) 0.9 0.9).take (nb - (seen.length + 1)) ++
        [hsvToRgb (360 / nb * ((nb - 1 - seen.length : ℕ) : ℝ)) 0.9 0.9] := by
      rw [hp, hd, List.take_succ]
      congr 1
      rw [List.getElem?_map, List.getElem?_range hn, Option.map_some, Option.toList_some,
        show nb - (seen.length + 1) = nb - 1 - seen.length by omega]
    unfold generate
    rw [e, List.getLast?_concat, List.dropLast_concat, nthColor, if_pos hlt]
  · have e : g.palette = [] := by rw [hp, show nb - seen.length = 0 by omega, List.take_zero]
    unfold generate
    rw [show nb - (seen.length + 1) = 0 by omega, List.take_zero, nthColor, if_neg hlt]
    rw [e]
    simp only [List.getLast?_nil]
    rw [← e]

lemma getColor_at {names : Thing → Option String} {g : Gen} {nb : ℕ} {seen : List ℕ} (h : genAt g nb seen) (t : Thing) :
    ∃ g', let seen' := if carrier t ∈ seen then seen else seen ++ [carrier t]
      getColor names g t = .ok (nthColor nb (seen'.idxOf (carrier t)), g') ∧ genAt g' nb seen' := by
  have hgen := generate_at h
  obtain ⟨hp, hb, hx, hn⟩ := h
  have hl : ∀ b, lookup names g (.body b) = if b ∈ seen then some (nthColor nb (seen.idxOf b)) else none := by
    intro b
    unfold lookup
    rw [hb]
    by_cases hm : b ∈ seen
    · simp [hm]
    · simp [hm, hn]
  have hbody : ∀ b, ∃ g', getBody names g b = .ok (nthColor nb ((if b ∈ seen then seen else seen ++ [b]).idxOf b), g') ∧
      genAt g' nb (if b ∈ seen then seen else seen ++ [b]) := by
    intro b
    by_cases hm : b ∈ seen
    · refine ⟨g, ?_, ?_⟩
      · simp only [getBody, hl, if_pos hm]
      · rw [if_pos hm]; exact ⟨hp, hb, hx, hn⟩
    · have hidx : (seen ++ [b]).idxOf b = seen.length := by
        rw [List.idxOf_append, if_neg hm]; simp
      have hin := inCube_nth nb seen.length
      refine ⟨⟨((List.range nb).map fun k : ℕ => hsvToRgb (360 / nb * k) 0.9 0.9).take (nb - (seen.length + 1)),
        PDict.set g.map (.obj (.body b)) (nthColor nb seen.length)⟩, ?_, ?_⟩
      · simp only [getBody, hl, if_neg hm, hgen, setColor, hidx, bind, Except.bind]
        unfold InCube at hin
        simp only [if_pos hin]; rfl
      · rw [if_neg hm]
        refine ⟨by simp, ?_, ?_, ?_⟩
        · intro b'
          simp only [pget_set, hb, List.mem_append, List.mem_singleton]
          by_cases he : b' = b
          · subst he; simp [hidx]
          · have : CKey.obj (.body b') ≠ .obj (.body b) := by simpa using he
            rw [if_neg this]
            by_cases hm' : b' ∈ seen
            · simp [hm', List.idxOf_append]
            · simp [hm', he]
        · intro x p; simp [pget_set, hx]
        · intro s; simp [pget_set, hn]
  cases t with
  | body b => exact hbody b
  | part x p =>
    obtain ⟨g', h1, h2⟩ := hbody p
    refine ⟨g', ?_, h2⟩
    have : lookup names g (.part x p) = none := by simp [lookup, hx, hn]
    simp only [getColor, this]
    exact h1

lemma foldl_seen (ts : List Thing) : ∀ acc : List ℕ, ∃ r, ts.foldl (fun acc t => if carrier t ∈ acc then acc else acc ++ [carrier t]) acc = acc ++ r := by
  induction ts with
  | nil => intro acc; exact ⟨[], by simp⟩
  | cons t ts ih =>
    intro acc
    obtain ⟨r, hr⟩ := ih (if carrier t ∈ acc then acc else acc ++ [carrier t])
    rw [List.foldl_cons, hr]
    split
    · exact ⟨r, rfl⟩
    · exact ⟨carrier t :: r, by simp⟩

/-- C68: a fresh generator of `nb` colours never raises, whatever the history of requests, and the colour of a thing is
the k-th colour of the palette (taken from its end; white when the palette is exhausted), `k` being the rank of its body
in the order of first requests. -/
theorem C68_assign (names : Thing → Option String) (nb : ℕ) (ts : List Thing) : ∃ g0 g, newGen [] nb = .ok g0 ∧
    askAll names g0 ts = .ok (ts.map fun t => nthColor nb ((firstSeen ts).idxOf (carrier t)), g) ∧
    ∀ k, InCube (nthColor nb k) := by
  have h0 : genAt ⟨(List.range nb).map fun k : ℕ => hsvToRgb (360 / nb * k) 0.9 0.9, []⟩ nb [] := by
    refine ⟨?_, by simp [pget_nil], by simp [pget_nil], by simp [pget_nil]⟩
    simp only [List.length_nil, Nat.sub_zero]
    rw [List.take_of_length_le (by simp)]
  have key : ∀ (ts : List Thing) (g : Gen) (seen : List ℕ), genAt g nb seen → ∃ g',
      askAll names g ts = .ok (ts.map fun t => nthColor nb ((ts.foldl (fun acc t => if carrier t ∈ acc then acc else acc ++ [carrier t]) seen).idxOf (carrier t)), g') := by
    intro ts
    induction ts with
    | nil => intro g seen _; exact ⟨g, rfl⟩
    | cons t ts ih =>
      intro g seen hg
      obtain ⟨g1, h1, h1'⟩ := getColor_at (names := names) hg t
      obtain ⟨g2, h2⟩ := ih g1 _ h1'
      refine ⟨g2, ?_⟩
      simp only [askAll, h1, bind, Except.bind]
      rw [h2]
      simp only [pure, Except.pure, List.map_cons, List.foldl_cons, Except.ok.injEq, Prod.mk.injEq, List.cons.injEq, and_true]
      obtain ⟨r, hr⟩ := foldl_seen ts (if carrier t ∈ seen then seen else seen ++ [carrier t])
      have hin : carrier t ∈ if carrier t ∈ seen then seen else seen ++ [carrier t] := by
        split
        · assumption
        · simp
      rw [hr, List.idxOf_append, if_pos hin]
  obtain ⟨g, hg⟩ := key ts _ [] h0
  exact ⟨_, g, rfl, hg, inCube_nth nb⟩

lemma hsv_inj {h h' : ℝ} (h0 : 0 ≤ h) (h1 : h < 360) (h0' : 0 ≤ h') (h1' : h' < 360)
    (e : hsvToRgb h 0.9 0.9 = hsvToRgb h' 0.9 0.9) : h = h' := by
  have red : ∀ h : ℝ, 0 ≤ h → h < 360 → ∃ (i : ℤ) (f : ℝ), 0 ≤ i ∧ i < 6 ∧ 0 ≤ f ∧ f < 1 ∧ h / 60 = 6 * (0 : ℤ) + i + f ∧ ⌊h / 60⌋ = 6 * 0 + i := by
    intro h h0 h1
    refine ⟨⌊h / 60⌋, Int.fract (h / 60), Int.floor_nonneg.mpr (by positivity), ?_, Int.fract_nonneg _, Int.fract_lt_one _, ?_, by simp⟩
    · rw [Int.floor_lt, div_lt_iff₀ (by norm_num)]; push_cast; linarith
    · push_cast; linarith [Int.self_sub_floor (h / 60)]
  obtain ⟨i, f, hi, hi6, hf, hf1, hx, hfl⟩ := red h h0 h1
  obtain ⟨i', f', hi', hi6', hf', hf1', hx', hfl'⟩ := red h' h0' h1'
  rw [hsv_eq hi hi6 hx hfl, hsv_eq hi' hi6' hx' hfl'] at e
  clear hfl hfl'
  suffices i + f = i' + f' by linarith
  clear hx hx' h0 h0' h1 h1'
  interval_cases i <;> interval_cases i' <;> simp only [if_true, if_false, Prod.mk.injEq, one_ne_zero, reduceCtorEq, OfNat.ofNat_ne_zero, OfNat.ofNat_ne_one, OfNat.one_ne_ofNat] at e <;> norm_num at e <;> norm_num <;> (try obtain ⟨e1, e2⟩ := e) <;> (try linarith)

/-- C68: as long as the palette is not exhausted, distinct bodies get distinct colours, and none is white. -/
theorem C68_distinct (nb k k' : ℕ) (hk : k < nb) (hk' : k' < nb) :
    (nthColor nb k = nthColor nb k' → k = k') ∧ nthColor nb k ≠ (1, 1, 1) := by
  have hnb : (0 : ℝ) < nb := by exact_mod_cast (by omega : 0 < nb)
  have range : ∀ k : ℕ, k < nb → (0:ℝ) ≤ 360 / nb * ((nb - 1 - k : ℕ) : ℝ) ∧ 360 / nb * ((nb - 1 - k : ℕ) : ℝ) < 360 := by
    intro k hk
    refine ⟨by positivity, ?_⟩
    rw [div_mul_eq_mul_div, div_lt_iff₀ hnb]
    have : ((nb - 1 - k : ℕ) : ℝ) < nb := by exact_mod_cast (by omega)
    linarith
  constructor
  · intro e
    rw [nthColor, nthColor, if_pos hk, if_pos hk'] at e
    have := hsv_inj (range k hk).1 (range k hk).2 (range k' hk').1 (range k' hk').2 e
    have h2 : ((nb - 1 - k : ℕ) : ℝ) = ((nb - 1 - k' : ℕ) : ℝ) := by
      have : (360 / (nb:ℝ)) ≠ 0 := by positivity
      exact mul_left_cancel₀ this ‹_›
    have := Nat.cast_injective h2
    omega
  · rw [nthColor, if_pos hk]
    intro e
    have h := (C67_range (360 / nb * ((nb - 1 - k : ℕ) : ℝ)) 0.9 0.9 (by norm_num) (by norm_num) (by norm_num) (by norm_num)).2.1
    simp only [e] at h
    norm_num at h

/-- C68, in one statement about two requests of a history: if the bodies of `ts[i]` and `ts[j]` are different and the
first is among the first `nb` bodies seen, their colours are different. -/
theorem C68_separate (names : Thing → Option String) (nb : ℕ) (ts : List Thing) (g0 g : Gen) (cs : List Color)
    (h0 : newGen [] nb = .ok g0) (h : askAll names g0 ts = .ok (cs, g)) (i j : ℕ) (ti tj : Thing) (ci cj : Color)
    (hti : ts[i]? = some ti) (htj : ts[j]? = some tj) (hci : cs[i]? = some ci) (hcj : cs[j]? = some cj)
    (hne : carrier ti ≠ carrier tj) (hrank : (firstSeen ts).idxOf (carrier ti) < nb) : ci ≠ cj := by
  obtain ⟨g0', g', h0', h', _⟩ := C68_assign names nb ts
  rw [h0'] at h0; cases h0
  rw [h'] at h; simp only [Except.ok.injEq, Prod.mk.injEq] at h
  rw [← h.1, List.getElem?_map, hti, Option.map_some, Option.some.injEq] at hci
  rw [← h.1, List.getElem?_map, htj, Option.map_some, Option.some.injEq] at hcj
  have hmem : ∀ t ∈ ts, carrier t ∈ firstSeen ts := by
    have key : ∀ (ts : List Thing) (acc : List ℕ) (t : Thing), t ∈ ts → carrier t ∈ ts.foldl (fun acc t => if carrier t ∈ acc then acc else acc ++ [carrier t]) acc := by
      intro ts
      induction ts with
      | nil => intro _ _ h; cases h
      | cons t' ts ih =>
        intro acc t hm
        rcases List.mem_cons.mp hm with rfl | hm
        · rw [List.foldl_cons]
          obtain ⟨r, hr⟩ := foldl_seen ts (if carrier t ∈ acc then acc else acc ++ [carrier t])
          rw [hr]
          refine List.mem_append_left _ ?_
          split
          · assumption
          · simp
        · rw [List.foldl_cons]; exact ih _ t hm
    exact fun t hm => key ts [] t hm
  have hidx : (firstSeen ts).idxOf (carrier ti) ≠ (firstSeen ts).idxOf (carrier tj) := by
    intro e
    exact hne ((List.idxOf_inj (hmem ti (List.mem_of_getElem? hti))).mp e)
  rw [← hci, ← hcj]
  intro e
  by_cases hj : (firstSeen ts).idxOf (carrier tj) < nb
  · exact hidx ((C68_distinct nb _ _ hrank hj).1 e)
  · rw [show nthColor nb ((firstSeen ts).idxOf (carrier tj)) = (1, 1, 1) by rw [nthColor, if_neg hj]] at e
    exact (C68_distinct nb _ _ hrank hrank).2 e

/-- Non-vacuity: two bodies, a shape of the first, with a palette of one colour; the second body is white. -/
example : firstSeen [.body 4, .body 7, .part 0 4] = [4, 7] ∧ nthColor 1 ((firstSeen [.body 4, .body 7, .part 0 4]).idxOf 7) = (1, 1, 1) := by
  have : firstSeen [.body 4, .body 7, .part 0 4] = [4, 7] := by decide
  rw [this]
  exact ⟨rfl, by simp [nthColor]⟩

end Arboris
