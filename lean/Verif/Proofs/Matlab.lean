import Verif.Spec.Matlab
import Verif.Proofs.GraphIter

/-! # Lemmas about the Matlab generator -/

namespace Arboris.Matlab
open Graph Build Spec

noncomputable section

lemma bind_run {α β : Type} (x : Gen α) (f : α → Gen β) (s : St) :
    (x >>= f) s = match x s with | .ok a s' => f a s' | .error e s' => .error e s' := by
  change EStateM.bind x f s = _
  unfold EStateM.bind
  cases x s <;> rfl

/-! ### the arrays -/

lemma modify_last {α : Type} (f : α → α) (B : α) : ∀ T : List α, (T ++ [B]).modify T.length f = T ++ [f B]
  | [] => rfl
  | a :: T => by
    rw [List.cons_append, List.length_cons, List.modify_succ_cons, modify_last f B T]
    rfl

lemma setAt_last {α : Type} [Inhabited α] (T : List α) (B : α) (f : α → α) : setAt (T ++ [B]) (T.length + 1) f = T ++ [f B] := by
  unfold setAt
  simp [modify_last]

lemma setAt_new {α : Type} [Inhabited α] (T : List α) (f : α → α) : setAt T (T.length + 1) f = T ++ [f default] := by
  unfold setAt
  simp [modify_last]

lemma mat2py_append (T : List Branch) (B : Branch) : mat2py (T ++ [B]) =
    mat2py T ++ B.bds.zipIdx.map fun y => readBd B (T.length + 1) (y.2 + 1) y.1 := by
  simp [mat2py, List.zipIdx_append]

lemma exec_link (T : List Branch) (B : Branch) (d : Bd) :
    execItem (T ++ [B]) (.link (T.length + 1) (B.bds.length + 1) d) = T ++ [{ B with bds := B.bds ++ [d] }] ∧
    mat2py (T ++ [{ B with bds := B.bds ++ [d] }]) = mat2py (T ++ [B]) ++ [readBd B (T.length + 1) (B.bds.length + 1) d] := by
  constructor
  · rw [execItem, setAt_last]
    simp only [setAt_new]
  · rw [mat2py_append, mat2py_append]
    simp [List.zipIdx_append, readBd]

lemma exec_branch (T : List Branch) (p : ℕ × ℕ) :
    execItem T (.branch (T.length + 1) p) = T ++ [⟨p, []⟩] ∧ mat2py (T ++ [⟨p, []⟩]) = mat2py T := by
  constructor
  · rw [execItem, setAt_new]
    rfl
  · rw [mat2py_append]
    simp

lemma mat2py_children_nodup (T : List Branch) : ((mat2py T).map Call.child).Nodup := by
  induction T using List.reverseRecOn with
  | nil => simp [mat2py]
  | append_singleton T B ih =>
    rw [mat2py_append, List.map_append, List.nodup_append]
    refine ⟨ih, ?_, ?_⟩
    · rw [List.map_map]
      have : (Call.child ∘ fun y : Bd × ℕ => readBd B (T.length + 1) (y.2 + 1) y.1) = (fun n => (T.length + 1, n + 1)) ∘ Prod.snd := rfl
      rw [this, ← List.map_map, List.zipIdx_map_snd]
      refine List.Nodup.map ?_ List.nodup_range'
      intro a b h
      simpa using h
    · intro a ha c hc
      simp only [mat2py, List.map_map, List.mem_map, List.mem_flatMap] at ha hc
      obtain ⟨x, ⟨y, hy, hx⟩, rfl⟩ := ha
      obtain ⟨z, hz, rfl⟩ := hc
      obtain ⟨u, hu, rfl⟩ := hx
      have h1 : y.2 < T.length := by
        have := List.mem_zipIdx hy
        omega
      intro e
      have := congrArg Prod.fst e
      simp [readBd] at this
      omega

/-! ### what `_traverse` writes -/

/-- one link as it will be written and read -/
structure Entry where
  parentBody : ℕ
  parentPlace : ℕ × ℕ
  link : FrameRef × ℕ × FrameRef
  body : ℕ
  place : ℕ × ℕ

def ecode (a : JAttr) : List ℤ := match jtype a 1 1 with
  | .ok E => E
  | .error _ => []

def bdOf (S : RS) (l : FrameRef × ℕ × FrameRef) (b : ℕ) : Bd :=
  ⟨pyStr (S.jname l.2.1), pyStr (S.bname b), ecode (S.jattr l.2.1), S.bposeOf l.1, S.bposeOf l.2.2, flipMass (S.mass b)⟩

mutual
/-- the links when the first goes on the branch `br` -/
def firstE (F : Forest (FrameRef × ℕ × FrameRef) ℕ) (p br bd : ℕ) : List Entry × ℕ :=
  match F with
  | .nil => ([], br)
  | .cons l b ch sib =>
    let a := firstE ch b br (bd + 1)
    let c := restE sib p (br, bd - 1) a.2
    (⟨p, (br, bd - 1), l, b, (br, bd)⟩ :: a.1 ++ c.1, c.2)
/-- the links when each starts a new branch -/
def restE (F : Forest (FrameRef × ℕ × FrameRef) ℕ) (p : ℕ) (pp : ℕ × ℕ) (br : ℕ) : List Entry × ℕ :=
  match F with
  | .nil => ([], br)
  | .cons l b ch sib =>
    let a := firstE ch b (br + 1) 2
    let c := restE sib p pp a.2
    (⟨p, pp, l, b, (br + 1, 1)⟩ :: a.1 ++ c.1, c.2)
end

/-- the blocks of a link -/
def itemsOf (S : RS) (e : Entry) : List Item :=
  (if e.place.2 = 1 then [.branch e.place.1 e.parentPlace] else []) ++ [.link e.place.1 e.place.2 (bdOf S e.link e.body)]

/-- the call of a link -/
def callOf (S : RS) (e : Entry) : Call :=
  ⟨some e.parentPlace, e.place, readKind (ecode (S.jattr e.link.2.1)), pyStr (S.jname e.link.2.1), S.bposeOf e.link.1, S.bposeOf e.link.2.2,
    flipMass (flipMass (S.mass e.body))⟩

lemma exec_entries (S : RS) (F : Forest (FrameRef × ℕ × FrameRef) ℕ) :
    (∀ p bd T B, 1 ≤ bd → B.bds.length = bd → (T ++ [B]).length = T.length + 1 →
      ∃ T', ((firstE F p (T.length + 1) (bd + 1)).1.flatMap (itemsOf S)).foldl execItem (T ++ [B]) = T' ∧
        T'.length = (firstE F p (T.length + 1) (bd + 1)).2 ∧
        mat2py T' = mat2py (T ++ [B]) ++ (firstE F p (T.length + 1) (bd + 1)).1.map (callOf S)) ∧
    (∀ p pp T, 1 ≤ T.length →
      ∃ T', ((restE F p pp T.length).1.flatMap (itemsOf S)).foldl execItem T = T' ∧
        T'.length = (restE F p pp T.length).2 ∧ mat2py T' = mat2py T ++ (restE F p pp T.length).1.map (callOf S)) := by
  induction F with
  | nil =>
    constructor
    · intro p bd T B _ _ _
      exact ⟨_, rfl, by simp [firstE], by simp [firstE]⟩
    · intro p pp T _
      exact ⟨_, rfl, by simp [restE], by simp [restE]⟩
  | cons l b ch sib ih1 ih2 =>
    constructor
    · intro p bd T B hbd hB _
      obtain ⟨e1, e2⟩ := exec_link T B (bdOf S l b)
      obtain ⟨T1, h1, h2, h3⟩ := ih1.1 b (bd + 1) T { B with bds := B.bds ++ [bdOf S l b] } (by omega) (by simp [hB]) (by simp)
      have hT1 : 1 ≤ T1.length := by
        by_contra h
        have h0 : T1 = [] := by
          rw [← List.length_eq_zero_iff]; omega
        have hc := congrArg List.length h3
        rw [h0, e2] at hc
        simp [mat2py] at hc
      obtain ⟨T2, k1, k2, k3⟩ := ih2.2 p (T.length + 1, bd) T1 hT1
      rw [h2] at k1 k2 k3
      refine ⟨T2, ?_, by simp only [firstE, Nat.add_sub_cancel]; exact k2, ?_⟩
      · simp only [firstE, Nat.add_sub_cancel, List.cons_append, List.flatMap_cons, List.flatMap_append, List.foldl_append]
        rw [show itemsOf S ⟨p, (T.length + 1, bd), l, b, (T.length + 1, bd + 1)⟩ = [.link (T.length + 1) (bd + 1) (bdOf S l b)] by
          simp [itemsOf]; omega]
        rw [List.foldl_cons, List.foldl_nil, ← hB, e1, hB, h1, k1]
      · rw [k3, h3, e2]
        simp only [firstE, Nat.add_sub_cancel, List.cons_append, List.map_cons, List.map_append, List.append_assoc, List.nil_append]
        congr 2
        simp only [readBd, callOf, bdOf, hB, Nat.add_sub_cancel]
        rw [if_neg (by omega), if_neg (by omega)]
    · intro p pp T hT
      obtain ⟨f1, f2⟩ := exec_branch T pp
      obtain ⟨e1, e2⟩ := exec_link T ⟨pp, []⟩ (bdOf S l b)
      simp only [List.length_nil, zero_add] at e1 e2
      obtain ⟨T1, h1, h2, h3⟩ := ih1.1 b 1 T ⟨pp, [bdOf S l b]⟩ (by omega) (by simp) (by simp)
      have hT1 : 1 ≤ T1.length := by
        by_contra h
        have h0 : T1 = [] := by
          rw [← List.length_eq_zero_iff]; omega
        have hc := congrArg List.length h3
        have e2' := e2
        simp only [List.nil_append] at e2'
        rw [h0, e2'] at hc
        simp [mat2py] at hc
      obtain ⟨T2, k1, k2, k3⟩ := ih2.2 p pp T1 hT1
      rw [h2] at k1 k2 k3
      refine ⟨T2, ?_, by simp only [restE]; exact k2, ?_⟩
      · simp only [restE, List.cons_append, List.flatMap_cons, List.flatMap_append, List.foldl_append]
        rw [show itemsOf S ⟨p, pp, l, b, (T.length + 1, 1)⟩ = [.branch (T.length + 1) pp, .link (T.length + 1) 1 (bdOf S l b)] by
          simp [itemsOf]]
        rw [List.foldl_cons, List.foldl_cons, List.foldl_nil, f1, e1]
        simp only [List.nil_append]
        rw [h1, k1]
      · simp only [List.nil_append] at e2
        rw [k3, h3, e2, f2]
        simp only [restE, List.cons_append, List.map_cons, List.map_append, List.append_assoc, List.nil_append]
        congr 2
        simp only [readBd, callOf, bdOf]
        rw [if_neg (by omega), if_pos trivial]

lemma entries_links (F : Forest (FrameRef × ℕ × FrameRef) ℕ) :
    (∀ p br bd, (firstE F p br bd).1.map (fun e => (e.parentBody, e.link, e.body)) = linksBelow p F) ∧
    (∀ p pp br, (restE F p pp br).1.map (fun e => (e.parentBody, e.link, e.body)) = linksBelow p F) := by
  induction F with
  | nil => exact ⟨fun _ _ _ => rfl, fun _ _ _ => rfl⟩
  | cons l b ch sib ih1 ih2 =>
    constructor
    · intro p br bd
      simp [firstE, linksBelow, ih1.1, ih2.2]
    · intro p pp br
      simp [restE, linksBelow, ih1.1, ih2.2]

lemma entries_parents (F : Forest (FrameRef × ℕ × FrameRef) ℕ) :
    (∀ p br bd, ∀ e ∈ (firstE F p br (bd + 1)).1,
      (e.parentBody, e.parentPlace) ∈ (p, (br, bd)) :: (firstE F p br (bd + 1)).1.map fun e => (e.body, e.place)) ∧
    (∀ p pp br, ∀ e ∈ (restE F p pp br).1,
      (e.parentBody, e.parentPlace) ∈ (p, pp) :: (restE F p pp br).1.map fun e => (e.body, e.place)) := by
  induction F with
  | nil => exact ⟨fun _ _ _ _ h => by simp [firstE] at h, fun _ _ _ _ h => by simp [restE] at h⟩
  | cons l b ch sib ih1 ih2 =>
    constructor
    · intro p br bd e he
      simp only [firstE, Nat.add_sub_cancel, List.cons_append, List.mem_cons, List.mem_append, List.map_cons, List.map_append] at he ⊢
      rcases he with rfl | he | he
      · exact .inl rfl
      · have := ih1.1 b br (bd + 1) e he
        rw [List.mem_cons] at this
        tauto
      · have := ih2.2 p (br, bd) _ e he
        rw [List.mem_cons] at this
        tauto
    · intro p pp br e he
      simp only [restE, List.cons_append, List.mem_cons, List.mem_append, List.map_cons, List.map_append] at he ⊢
      rcases he with rfl | he | he
      · exact .inl rfl
      · have := ih1.1 b (br + 1) 1 e he
        rw [List.mem_cons] at this
        tauto
      · have := ih2.2 p pp _ e he
        rw [List.mem_cons] at this
        tauto

lemma flipMass_flipMass (m : Mat6) : flipMass (flipMass m) = m := by
  unfold flipMass
  simp

lemma readKind_ecode {a : JAttr} (h : (hinge a).isSome ∨ ∃ H T, a = .free H T) : readKind (ecode a) = kindOf a := by
  rcases h with h | ⟨H, T, rfl⟩
  · rcases a with ⟨k, q, dq⟩ | ⟨H, T⟩ | _
    · cases k <;> simp [hinge] at h <;> simp [ecode, jtype, readKind, kindOf, hinge]
    · simp [hinge] at h
    · simp [hinge] at h
  · simp [ecode, jtype, readKind, kindOf]

/-! ### `_traverse` -/

/-- the state after links were written -/
def appendSt (S : RS) (E : List Entry) (s : St) : St where
  out := s.out ++ E.flatMap (itemsOf S)
  bmap := (E.map fun e => (S.bname e.body, e.place)).reverse ++ s.bmap
  vals := s.vals ++ E.map fun e => S.jattr e.link.2.1

lemma appendSt_append (S : RS) (E E' : List Entry) (s : St) : appendSt S E' (appendSt S E s) = appendSt S (E ++ E') s := by
  simp [appendSt]

lemma jtype_hinge {a : JAttr} (h : (hinge a).isSome) (br bd : ℕ) : jtype a br bd = .ok (ecode a) := by
  rcases a with ⟨k, q, dq⟩ | ⟨H, T⟩ | _
  · cases k <;> simp [hinge] at h <;> rfl
  · simp [hinge] at h
  · simp [hinge] at h

lemma addLink_run {S : RS} {f0 f1 : FrameRef} {j br bd : ℕ} (h0 : (S.w.joint j).frame0 = some f0) (h1 : (S.w.joint j).frame1 = some f1)
    (ht : jtype (S.jattr j) br bd = .ok (ecode (S.jattr j))) (s : St) :
    addLink S j br bd s = .ok () { s with out := s.out ++ [.link br bd (bdOf S (f0, j, f1) (S.o.bodyOf f1))],
                                          bmap := (S.bname (S.o.bodyOf f1), (br, bd)) :: s.bmap } := by
  unfold addLink
  rw [h0, h1]
  simp only [ht]
  rfl

lemma kids_run {S : RS} {f1 : FrameRef} {j : ℕ} (h1 : (S.w.joint j).frame1 = some f1) (s : St) :
    kids S j s = .ok (S.w.body (S.o.bodyOf f1)).children s := by
  unfold kids
  rw [h1]
  rfl

lemma addVal_run (S : RS) (j : ℕ) (s : St) : addVal S j s = .ok () { s with vals := s.vals ++ [S.jattr j] } := rfl

lemma addBranch_run (br : ℕ) (pp : ℕ × ℕ) (s : St) : addBranch br pp s = .ok () { s with out := s.out ++ [.branch br pp] } := rfl

lemma traverse_run {S : RS} {p : ℕ} {js : List ℕ} {F : Forest (FrameRef × ℕ × FrameRef) ℕ} (hu : Unfolds S.o S.w p js F)
    (hh : ∀ l ∈ F.links, (hinge (S.jattr l.2.1)).isSome) :
    (∀ k br bd s, depth F < k → 1 ≤ bd →
      traverse S k js br (bd + 1) s = .ok (firstE F p br (bd + 1)).2 (appendSt S (firstE F p br (bd + 1)).1 s)) ∧
    (∀ k br pp s, depth F ≤ k →
      js.foldlM (fun br j => (do
        addBranch (br + 1) pp
        addLink S j (br + 1) 1
        addVal S j
        let ch ← kids S j
        traverse S k ch (br + 1) 2 : Gen ℕ)) br s = .ok (restE F p pp br).2 (appendSt S (restE F p pp br).1 s)) := by
  induction hu with
  | nil b =>
    constructor
    · intro k br bd s hk _
      obtain ⟨k, rfl⟩ : ∃ k', k = k' + 1 := ⟨k - 1, by omega⟩
      simp only [firstE, traverse]
      change EStateM.Result.ok br s = _
      simp [appendSt]
    · intro k br pp s _
      simp only [restE, List.foldlM_nil]
      change EStateM.Result.ok br s = _
      simp [appendSt]
  | @cons b j js f0 f1 ch sib h0 h1 hb hp hch hsib ih1 ih2 =>
    simp only [Forest.links, List.cons_append, List.mem_cons, List.mem_append] at hh
    have hj := hh _ (.inl rfl)
    have i1 := ih1 fun l hl => hh l (.inr (.inl hl))
    have i2 := ih2 fun l hl => hh l (.inr (.inr hl))
    constructor
    · intro k br bd s hk hbd
      obtain ⟨k, rfl⟩ : ∃ k', k = k' + 1 := ⟨k - 1, by omega⟩
      simp only [depth] at hk
      unfold traverse
      rw [bind_run, addLink_run h0 h1 (jtype_hinge hj _ _)]
      simp only
      rw [bind_run, addVal_run]
      simp only
      rw [bind_run, kids_run h1]
      simp only
      rw [bind_run, i1.1 k br (bd + 1) _ (by omega) (by omega)]
      simp only
      rw [i2.2 k _ _ _ (by omega)]
      simp only [firstE]
      rw [appendSt_append]
      congr 1
      simp [appendSt, itemsOf]
      omega
    · intro k br pp s hk
      simp only [depth] at hk
      rw [List.foldlM_cons, bind_run, bind_run, addBranch_run]
      simp only
      rw [bind_run, addLink_run h0 h1 (jtype_hinge hj _ _)]
      simp only
      rw [bind_run, addVal_run]
      simp only
      rw [bind_run, kids_run h1]
      simp only
      rw [i1.1 k (br + 1) 1 _ (by omega) (by omega)]
      simp only
      rw [i2.2 k _ _ _ (by omega)]
      simp only [restE]
      rw [appendSt_append]
      congr 1
      simp [appendSt, itemsOf]

/-- the links of a robot -/
def robotE (p : ℕ) (l : FrameRef × ℕ × FrameRef) (b : ℕ) (ch : Forest (FrameRef × ℕ × FrameRef) ℕ) : List Entry :=
  ⟨p, (0, 0), l, b, (1, 1)⟩ :: (firstE ch b 1 2).1

lemma traverse_robot {S : RS} {p : ℕ} {l : FrameRef × ℕ × FrameRef} {b : ℕ} {ch : Forest (FrameRef × ℕ × FrameRef) ℕ}
    (h : IsMatlabRobot S p l b ch) {lim : ℕ} (hl : depth ch + 1 < lim) (s : St) :
    ∃ br, (addBranch 1 (0, 0) >>= fun _ => traverse S lim [l.2.1] 1 1) s = .ok br (appendSt S (robotE p l b ch) s) := by
  obtain ⟨lim, rfl⟩ : ∃ k', lim = k' + 1 := ⟨lim - 1, by omega⟩
  obtain ⟨H, T, hr⟩ := h.root
  have hu := h.unfolds
  rcases l with ⟨f0, j, f1⟩
  cases hu with
  | cons h0 h1 hb hp hch hsib =>
    have i1 := fun s => (traverse_run hch h.hinges).1 lim 1 1 s (by omega) le_rfl
    · refine ⟨(firstE ch (S.o.bodyOf f1) 1 2).2, ?_⟩
      rw [bind_run, addBranch_run]
      simp only
      unfold traverse
      rw [bind_run, addLink_run h0 h1 (by simp only at hr; rw [hr]; rfl)]
      simp only
      rw [bind_run, addVal_run]
      simp only
      rw [bind_run, kids_run h1]
      simp only
      rw [bind_run, i1]
      simp only [List.foldlM_nil]
      change EStateM.Result.ok _ _ = _
      simp only [robotE, appendSt, List.flatMap_cons, itemsOf, List.map_cons]
      simp

/-! ### shapes -/

/-- what is written for a shape: its class and dimensions -/
def shText (g : ShapeGeo) : String × List ℝ := (shapeText g none).getD ("", [])

def isPlane : ShapeGeo → Prop
  | .plane _ => True
  | _ => False

lemma shapeText_eq {g : ShapeGeo} (h : ¬ isPlane g) (old) : shapeText g old = some (shText g) := by
  cases g <;> first | rfl | exact absurd trivial h

/-- the name of the body a shape is on -/
def onName (S : RS) (v : ℕ) : Option String := S.bname (S.o.bodyOf (S.o.shapeFrame v))

/-- the blocks of the shapes `vs`, `pre` having been written before -/
def shapeItems (S : RS) (bmap : List (Option String × (ℕ × ℕ))) : List ℕ → List ℕ → List Item
  | _, [] => []
  | pre, v :: vs =>
    .shape ((bmap.lookup (onName S v)).getD (0, 0)).1 ((bmap.lookup (onName S v)).getD (0, 0)).2
      (pre.countP (fun u => onName S u = onName S v) + 1)
      ⟨(shText (S.geo v)).1, (shText (S.geo v)).2, S.bposeOf (S.o.shapeFrame v)⟩ :: shapeItems S bmap (pre ++ [v]) vs

lemma addShapesLoop_run (S : RS) : ∀ (vs pre : List ℕ) (d : List (Option String × ℕ)) (old) (s : St),
    (∀ n, bump d n = pre.countP (fun u => onName S u = n) + 1) →
    (∀ v ∈ vs, (s.bmap.lookup (onName S v)).isSome ∧ ¬ isPlane (S.geo v)) →
    addShapesLoop S vs d old s = .ok () { s with out := s.out ++ shapeItems S s.bmap pre vs }
  | [], pre, d, old, s, _, _ => by
    simp only [addShapesLoop, shapeItems, List.append_nil]
    rfl
  | v :: vs, pre, d, old, s, hd, hv => by
    obtain ⟨h1, h2⟩ := hv v List.mem_cons_self
    obtain ⟨⟨br, bd⟩, h1⟩ := Option.isSome_iff_exists.mp h1
    unfold addShapesLoop
    rw [bind_run]
    change (match s.bmap.lookup (S.bname (S.o.bodyOf (S.o.shapeFrame v))) with
      | none => throw .keyError
      | some (br, bd) => _ : Gen Unit) s = _
    have h1' : s.bmap.lookup (S.bname (S.o.bodyOf (S.o.shapeFrame v))) = some (br, bd) := h1
    simp only [h1', shapeText_eq h2]
    rw [bind_run]
    simp only [write, modify, modifyGet, MonadStateOf.modifyGet, EStateM.modifyGet]
    have e := hd (S.bname (S.o.bodyOf (S.o.shapeFrame v)))
    rw [addShapesLoop_run S vs (pre ++ [v]) _ _ _ ?_ ?_]
    · simp only [shapeItems, h1, Option.getD_some, List.append_assoc, List.singleton_append, e]
      rfl
    · intro n
      rw [List.countP_append]
      unfold bump
      rw [List.lookup_cons]
      by_cases hn : n = onName S v
      · subst hn
        have : (onName S v == S.bname (S.o.bodyOf (S.o.shapeFrame v))) = true := by simp [onName]
        rw [this]
        simp only [List.countP_singleton, decide_true]
        have := hd (onName S v)
        unfold bump at this
        unfold onName at this ⊢
        simp [this]
      · have : (n == S.bname (S.o.bodyOf (S.o.shapeFrame v))) = false := by
          simpa [onName] using hn
        rw [this]
        have := hd n
        unfold bump at this
        simp only [List.countP_singleton, Ne.symm hn, decide_false]
        simpa using this
    · exact fun u hu => hv u (List.mem_cons_of_mem _ hu)

lemma shapeItems_ne (S : RS) (bmap) : ∀ (vs pre : List ℕ) (T : List Branch), (shapeItems S bmap pre vs).foldl execItem T = T
  | [], _, _ => rfl
  | v :: vs, pre, T => by
    rw [shapeItems, List.foldl_cons]
    exact shapeItems_ne S bmap vs (pre ++ [v]) T

/-- the blocks written by `_add_shapes` -/
def allShapes (S : RS) (bmap : List (Option String × (ℕ × ℕ))) : List Item :=
  if S.w.shapes = [] then [.shape 1 1 1 ⟨"sphere", [0.01], 1⟩] else shapeItems S bmap [] S.w.shapes

lemma addShapes_run {S : RS} {s : St} (h : ∀ v ∈ S.w.shapes, (s.bmap.lookup (onName S v)).isSome ∧ ¬ isPlane (S.geo v)) :
    addShapes S s = .ok () { s with out := s.out ++ allShapes S s.bmap } := by
  unfold addShapes
  rw [bind_run, addShapesLoop_run S S.w.shapes [] [] none s (fun n => by simp [bump]) h]
  simp only
  by_cases hs : S.w.shapes = []
  · rw [if_pos (by simp [hs]), hs]
    simp [write, modify, modifyGet, MonadStateOf.modifyGet, EStateM.modifyGet, shapeItems, allShapes, hs]
  · rw [if_neg (by simpa using hs)]
    change EStateM.Result.ok () _ = _
    simp [allShapes, hs]

lemma allShapes_exec (S : RS) (bmap) (T : List Branch) : (allShapes S bmap).foldl execItem T = T := by
  unfold allShapes
  split_ifs
  · rfl
  · exact shapeItems_ne _ _ _ _ _

/-! ### the initial state -/

lemma hstackPos_hinges {l : List JAttr} (hne : l ≠ []) (h : ∀ a ∈ l, (hinge a).isSome) :
    hstackPos l = .ok (.vec (l.flatMap gposList)) := by
  have h1 : l.mapM matOf = none := by
    cases l with
    | nil => exact absurd rfl hne
    | cons a l =>
      rcases a with ⟨k, q, dq⟩ | ⟨H, T⟩ | _
      · simp [matOf, vecOf]
      · have := h _ List.mem_cons_self; simp [hinge] at this
      · simp [matOf, vecOf]
  have h2 : l.mapM vecOf = some (l.map gposList) := by
    clear h1 hne
    induction l with
    | nil => rfl
    | cons a l ih =>
      have ih := ih fun a ha => h a (List.mem_cons_of_mem _ ha)
      rw [List.mapM_cons, ih]
      rcases a with ⟨k, q, dq⟩ | ⟨H, T⟩ | _
      · simp [matOf, vecOf]
      · have := h _ List.mem_cons_self; simp [hinge] at this
      · simp [matOf, vecOf]
  unfold hstackPos
  rw [if_neg hne, h1, h2]
  simp [List.flatMap]

lemma finish_run {s : St} {H : Mat4} {T : Vec6} {l : List JAttr} (hv : s.vals = .free H T :: l) (hne : l ≠ [])
    (h : ∀ a ∈ l, (hinge a).isSome) :
    finish s = .ok () { s with out := s.out ++ [.state H (.vec (l.flatMap gposList))
      (((List.ofFn T).drop 3).take 3 ++ (List.ofFn T).take 3 ++ l.flatMap gvelList)] } := by
  unfold finish
  rw [bind_run]
  simp only [get, getThe, MonadStateOf.get, EStateM.get]
  rw [hv]
  simp only [hstackPos_hinges hne h]
  rw [← hv]
  rfl

/-! ### the file -/

/-- the file of a robot -/
def robotFile (S : RS) (p : ℕ) (l : FrameRef × ℕ × FrameRef) (b : ℕ) (ch : Forest (FrameRef × ℕ × FrameRef) ℕ) (name : String)
    (H : Mat4) (T : Vec6) : List Item :=
  .tree name :: (robotE p l b ch).flatMap (itemsOf S) ++ allShapes S (((robotE p l b ch).map fun e => (S.bname e.body, e.place)).reverse) ++
    [.state H (.vec ((ch.links.map fun l => S.jattr l.2.1).flatMap gposList))
      (((List.ofFn T).drop 3).take 3 ++ (List.ofFn T).take 3 ++ (ch.links.map fun l => S.jattr l.2.1).flatMap gvelList)]

lemma linksBelow_links (F : Forest (FrameRef × ℕ × FrameRef) ℕ) : ∀ p, (linksBelow p F).map (fun x => x.2.1) = F.links := by
  induction F with
  | nil => intro p; rfl
  | cons l b ch sib ih1 ih2 => intro p; simp [linksBelow, Forest.links, ih1, ih2]

lemma linksBelow_bodies (F : Forest (FrameRef × ℕ × FrameRef) ℕ) : ∀ p, (linksBelow p F).map (fun x => x.2.2) = F.bodies := by
  induction F with
  | nil => intro p; rfl
  | cons l b ch sib ih1 ih2 => intro p; simp [linksBelow, Forest.bodies, ih1, ih2]

lemma robotE_links (p : ℕ) (l b ch) : (robotE p l b ch).map (fun e => (e.parentBody, e.link, e.body)) = linksBelow p (.cons l b ch .nil) := by
  simp [robotE, linksBelow, (entries_links ch).1]

lemma robotE_bodies (p : ℕ) (l b ch) : (robotE p l b ch).map (fun e => e.body) = b :: ch.bodies := by
  have := congrArg (List.map fun x => x.2.2) (robotE_links p l b ch)
  rw [linksBelow_bodies, List.map_map] at this
  simpa [Forest.bodies, Function.comp_def] using this

lemma robotE_vals (S : RS) (p : ℕ) (l b ch) :
    (robotE p l b ch).map (fun e => S.jattr e.link.2.1) = S.jattr l.2.1 :: ch.links.map fun l => S.jattr l.2.1 := by
  have := congrArg (List.map fun x => S.jattr x.2.1.2.1) (robotE_links p l b ch)
  rw [List.map_map] at this
  rw [show (fun e : Entry => S.jattr e.link.2.1) = ((fun x => S.jattr x.2.1.2.1) ∘ fun e : Entry => (e.parentBody, e.link, e.body)) from rfl, this]
  have h2 := congrArg (List.map fun l => S.jattr l.2.1) (linksBelow_links (.cons l b ch .nil) p)
  rw [List.map_map] at h2
  simpa [Forest.links, Function.comp_def] using h2

lemma lookup_isSome {β : Type} {m : List (Option String × β)} {n : Option String} (h : n ∈ m.map Prod.fst) : (m.lookup n).isSome := by
  induction m with
  | nil => simp at h
  | cons a m ih =>
    rw [List.lookup_cons]
    by_cases e : n = a.1
    · simp [e]
    · have : (n == a.1) = false := by simpa using e
      rw [this]
      simp only [List.map_cons, List.mem_cons] at h
      exact ih (h.resolve_left e)

lemma makeRobot_run {S : RS} {p : ℕ} {l : FrameRef × ℕ × FrameRef} {b : ℕ} {ch : Forest (FrameRef × ℕ × FrameRef) ℕ}
    (h : IsMatlabRobot S p l b ch) (hch : ch ≠ .nil) {lim : ℕ} (hl : depth ch + 1 < lim)
    (hs : ∀ v ∈ S.w.shapes, S.o.bodyOf (S.o.shapeFrame v) ∈ b :: ch.bodies ∧ ¬ isPlane (S.geo v))
    {H : Mat4} {T : Vec6} (hr : S.jattr l.2.1 = .free H T) (name : String) (out : List Item) :
    ∃ s', makeRobot S lim l.2.1 name ⟨out, [], []⟩ = .ok () s' ∧ s'.out = out ++ robotFile S p l b ch name H T := by
  obtain ⟨br, ht⟩ := traverse_robot h hl ⟨out ++ [.tree name], [], []⟩
  have hbody : body S lim l.2.1 name ⟨out, [], []⟩ = ((addShapes S >>= fun _ => finish) : Gen Unit) (appendSt S (robotE p l b ch) ⟨out ++ [.tree name], [], []⟩) := by
    unfold body
    rw [bind_run]
    simp only [write, modify, modifyGet, MonadStateOf.modifyGet, EStateM.modifyGet]
    rw [bind_run, addBranch_run] at ht ⊢
    simp only at ht ⊢
    rw [bind_run, ht]
  have hshapes := addShapes_run (S := S) (s := appendSt S (robotE p l b ch) ⟨out ++ [.tree name], [], []⟩) (by
    intro v hv
    refine ⟨lookup_isSome ?_, (hs v hv).2⟩
    have := (hs v hv).1
    rw [← robotE_bodies p l b ch] at this
    obtain ⟨e, he, heq⟩ := List.mem_map.mp this
    simp only [appendSt, List.append_nil, List.map_reverse, List.map_map, List.mem_reverse, List.mem_map]
    exact ⟨e, he, by simp [onName, heq]⟩)
  have hlinks : ch.links.map (fun l => S.jattr l.2.1) ≠ [] := by
    cases ch with
    | nil => exact absurd rfl hch
    | cons => simp [Forest.links]
  have hfin := finish_run (s := { appendSt S (robotE p l b ch) ⟨out ++ [.tree name], [], []⟩ with
      out := (appendSt S (robotE p l b ch) ⟨out ++ [.tree name], [], []⟩).out ++
        allShapes S (appendSt S (robotE p l b ch) ⟨out ++ [.tree name], [], []⟩).bmap }) (H := H) (T := T)
    (l := ch.links.map fun l => S.jattr l.2.1) (by simp [appendSt, robotE_vals, hr]) hlinks (by
      intro a ha
      obtain ⟨l', hl', rfl⟩ := List.mem_map.mp ha
      exact h.hinges l' hl')
  rw [bind_run, hshapes] at hbody
  simp only at hbody
  rw [hfin] at hbody
  have hmake : makeRobot S lim l.2.1 name ⟨out, [], []⟩ = body S lim l.2.1 name ⟨out, [], []⟩ := by
    unfold makeRobot
    rw [hr]
    change EStateM.tryCatch _ _ _ = _
    unfold EStateM.tryCatch
    rw [hbody]
  refine ⟨_, hmake.trans hbody, ?_⟩
  simp [appendSt, robotFile]

end
end Arboris.Matlab
