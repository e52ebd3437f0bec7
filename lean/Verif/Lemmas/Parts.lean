import Verif.Spec.Parts
import Verif.Props.Interchange
import Verif.Props.Recover

/-! Operators part by part: the ways the operators work on text and on labels, each on a sequence in two parts. -/

namespace Uttut

open Spec

variable {α β : Type}

/-- `InParts` for the code of an operator. -/
inductive FnParts (f : List α → Res (List β × Aligner)) (x y : List α) : Prop
  | fails (e : Exc) : f x = .error e → f (x ++ y) = .error e → FnParts f x y
  | failsThen (r : List β × Aligner) (e : Exc) : f x = .ok r → f y = .error e → f (x ++ y) = .error e → FnParts f x y
  | gives (o₁ o₂ : List β) (a₁ a₂ a : Aligner) : f x = .ok (o₁, a₁) → f y = .ok (o₂, a₂) →
    f (x ++ y) = .ok (o₁ ++ o₂, a) →
    (∀ l₁ l₂, l₁.length = x.length → l₂.length = y.length →
      a.transform (l₁ ++ l₂) = bothAnswers (a₁.transform l₁) (a₂.transform l₂)) →
    (∀ l₁ l₂, l₁.length = o₁.length → l₂.length = o₂.length →
      a.inverseTransform (l₁ ++ l₂) = bothAnswers (a₁.inverseTransform l₁) (a₂.inverseTransform l₂)) → FnParts f x y

theorem FnParts.lift {op : Op} {f : List α → Res (List β × Aligner)} {inj : List α → Seq} {inj' : List β → Seq}
    (hj : ∀ x y z, Joined (inj x) (inj y) z → z = inj (x ++ y))
    (hj' : ∀ x y, Joined (inj' x) (inj' y) (inj' (x ++ y))) (hl : ∀ x, (inj x).length = x.length)
    (hl' : ∀ x, (inj' x).length = x.length)
    (hop : ∀ x, op.transform (inj x) = (f x).map fun r => (inj' r.1, r.2)) {x y : List α} (h : FnParts f x y) :
    InParts (opOutcome op) (inj x) (inj y) := by
  have ho : ∀ x, opOutcome op (inj x) = (f x).map fun r => (inj' r.1, r.2.transform, r.2.inverseTransform) := by
    intro x
    unfold opOutcome
    rw [hop]
    cases f x <;> rfl
  cases h with
  | fails e h1 h2 =>
    refine ⟨fun z e' hz h => ?_, fun z r e' hz h _ => ?_, fun z o₁ o₂ f₁ f₂ b₁ b₂ hz h _ => ?_⟩
    · rw [hj _ _ _ hz, ho, h2]
      rw [ho, h1] at h
      exact h
    · rw [ho, h1] at h; cases h
    · rw [ho, h1] at h; cases h
  | failsThen r e h1 h2 h3 =>
    refine ⟨fun z e' hz h => ?_, fun z r e' hz _ h => ?_, fun z o₁ o₂ f₁ f₂ b₁ b₂ hz _ h => ?_⟩
    · rw [ho, h1] at h; cases h
    · rw [hj _ _ _ hz, ho, h3]
      rw [ho, h2] at h
      exact h
    · rw [ho, h2] at h; cases h
  | gives o₁ o₂ a₁ a₂ a h1 h2 h3 h4 h5 =>
    refine ⟨fun z e' hz h => ?_, fun z r e' hz _ h => ?_, fun z p₁ p₂ f₁ f₂ b₁ b₂ hz g1 g2 => ?_⟩
    · rw [ho, h1] at h; cases h
    · rw [ho, h2] at h; cases h
    · rw [ho, h1] at g1
      rw [ho, h2] at g2
      cases g1
      cases g2
      refine ⟨_, _, _, by rw [hj _ _ _ hz, ho, h3]; rfl, hj' _ _, fun l₁ l₂ e1 e2 => ?_, fun l₁ l₂ e1 e2 => ?_⟩
      · rw [hl] at e1 e2
        exact h4 l₁ l₂ e1 e2
      · rw [hl'] at e1 e2
        exact h5 l₁ l₂ e1 e2

theorem joined_str (x y : Str) (z : Seq) (h : Joined (.str x) (.str y) z) : z = .str (x ++ y) := by cases h; rfl
theorem joined_list (x y : List Tok) (z : Seq) (h : Joined (.list x) (.list y) z) : z = .list (x ++ y) := by cases h; rfl

/-- A call on a sequence of the wrong type. -/
theorem inParts_wrong_type {op : Op} {x y : Seq} (h : x.type ≠ op.cls.inputType) : InParts (opOutcome op) x y := by
  have he : ∀ s : Seq, s.type ≠ op.cls.inputType → opOutcome op s = .error .typeError := by
    intro s hs
    unfold opOutcome Op.transform
    rw [if_pos hs]
    rfl
  refine ⟨fun z e hz h1 => ?_, fun z r e hz h1 _ => ?_, fun z o₁ o₂ f₁ f₂ b₁ b₂ hz h1 _ => ?_⟩
  · rw [he x h] at h1
    have ht : z.type = x.type := by cases hz <;> rfl
    rw [he z (ht ▸ h), ← h1]
  · rw [he x h] at h1; cases h1
  · rw [he x h] at h1; cases h1

/-- A call on parts of different types: there is no whole. -/
theorem inParts_mixed {f : Seq → Outcome} {x y : Seq} (h : x.type ≠ y.type) : InParts f x y := by
  have hn : ∀ z, ¬ Joined x y z := by
    intro z hz
    cases hz <;> exact h rfl
  exact ⟨fun z _ hz => absurd hz (hn z), fun z _ _ hz => absurd hz (hn z), fun z _ _ _ _ _ _ hz => absurd hz (hn z)⟩

theorem inParts_strOp {op : Op} {f : Str → Res (Str × Aligner)} (hi : op.cls.inputType = .str)
    (ho : op.cls.outputType = .str) (hr : op.run = strOp f) {x y : Str} (h : FnParts f x y) :
    InParts (opOutcome op) (.str x) (.str y) := by
  refine FnParts.lift (inj := .str) (inj' := .str) joined_str Joined.str (fun _ => rfl) (fun _ => rfl) (fun s => ?_) h
  unfold Op.transform
  rw [hr, hi, ho, if_neg (by simp [Seq.type])]
  show ((f s >>= _) >>= _) = _
  cases f s with
  | error e => rfl
  | ok r => rfl

theorem inParts_tokOp {op : Op} {f : Str → Res (List Str × Aligner)} (hi : op.cls.inputType = .str)
    (ho : op.cls.outputType = .list) (hr : op.run = tokOp f) {x y : Str} (h : FnParts f x y) :
    InParts (opOutcome op) (.str x) (.str y) := by
  refine FnParts.lift (inj := .str) (inj' := fun l => .list (l.map Tok.str)) joined_str (fun x y => ?_) (fun _ => rfl)
    (fun _ => List.length_map ..) (fun s => ?_) h
  · rw [List.map_append]
    exact .list _ _
  · unfold Op.transform
    rw [hr, hi, ho, if_neg (by simp [Seq.type])]
    show ((f s >>= _) >>= _) = _
    cases f s with
    | error e => rfl
    | ok r => rfl

theorem inParts_lstOp {op : Op} {f : List Tok → Res (List Tok × Aligner)} (hi : op.cls.inputType = .list)
    (ho : op.cls.outputType = .list) (hr : op.run = lstOp f) {x y : List Tok} (h : FnParts f x y) :
    InParts (opOutcome op) (.list x) (.list y) := by
  refine FnParts.lift (inj := .list) (inj' := .list) joined_list Joined.list (fun _ => rfl) (fun _ => rfl) (fun s => ?_) h
  unfold Op.transform
  rw [hr, hi, ho, if_neg (by simp [Seq.type])]
  show ((f s >>= _) >>= _) = _
  cases f s with
  | error e => rfl
  | ok r => rfl

theorem bothAnswers_ok {r s : Res (List Int)} {x y : List Int} (hr : r = .ok x) (hs : s = .ok y) :
    bothAnswers r s = .ok (x ++ y) := by
  subst hr; subst hs; rfl

/-! ### Labels that pass unchanged -/

theorem passThrough_parts {f : List α → Res (List β × Aligner)} {g : List α → List β}
    {x y : List α} (hg : g (x ++ y) = g x ++ g y)
    (h : ∀ s ∈ [x, y, x ++ y], (g s).length = s.length ∧ ∃ a, f s = .ok (g s, a) ∧ PassThrough a s.length) : FnParts f x y := by
  obtain ⟨l1, a1, h1, p1⟩ := h x (by simp)
  obtain ⟨l2, a2, h2, p2⟩ := h y (by simp)
  obtain ⟨_, a, h3, p⟩ := h (x ++ y) (by simp)
  rw [hg] at h3
  refine .gives _ _ _ _ _ h1 h2 h3 (fun m1 m2 e1 e2 => ?_) (fun m1 m2 e1 e2 => ?_)
  · rw [(p (m1 ++ m2) (by simp [e1, e2])).1, bothAnswers_ok (p1 m1 e1).1 (p2 m2 e2).1]
  · rw [(p (m1 ++ m2) (by simp [e1, e2, l1, l2])).2, bothAnswers_ok (p1 m1 (by omega)).2 (p2 m2 (by omega)).2]

/-! ### Recognised segments -/

theorem splitLike_append (rs ss : List Str) (l m : List Int) (h : l.length = rs.flatten.length) :
    splitLike (rs ++ ss) (l ++ m) = splitLike rs l ++ splitLike ss m := by
  induction rs generalizing l with
  | nil =>
    simp at h
    subst h
    rfl
  | cons r rs ih =>
    simp only [List.flatten_cons, List.length_append] at h
    simp only [List.cons_append, splitLike]
    rw [List.take_append_of_le_length (by omega), List.drop_append_of_le_length (by omega),
      ih (l.drop r.length) (by rw [List.length_drop]; omega)]

theorem mapLabels_append (rec : Str → Bool) (F : Str → List Int → List Int) (rs ss : List Str) (l m : List (List Int))
    (h : rs.length = l.length) :
    mapLabels rec F (rs ++ ss) (l ++ m) = mapLabels rec F rs l ++ mapLabels rec F ss m := by
  unfold mapLabels
  rw [List.zip_append h, List.flatMap_append]

/-- An operator that replaces the segments picked out by `rec`, with labels made from the labels of the segment. -/
structure SegLaw (f : Str → Res (Str × Aligner)) (rec : Str → Bool) (new : Str → Str) (F B : Str → List Int → List Int)
    (s : Str) (segs : List Str) : Prop where
  flat : segs.flatten = s
  run : ∃ a, f s = .ok ((segs.map fun w => if rec w then new w else w).flatten, a) ∧
    (∀ ls, ls.length = s.length → a.transform ls = .ok (mapLabels rec F segs (splitLike segs ls))) ∧
    (∀ ls, ls.length = ((segs.map fun w => if rec w then new w else w).flatten).length →
      a.inverseTransform ls = .ok (mapLabels rec B segs (splitLike (segs.map fun w => if rec w then new w else w) ls)))

theorem SegLaw.parts {f : Str → Res (Str × Aligner)} {rec : Str → Bool} {new : Str → Str} {F B : Str → List Int → List Int}
    {x y : Str} {rs ss : List Str} (hx : SegLaw f rec new F B x rs) (hy : SegLaw f rec new F B y ss)
    (h : SegLaw f rec new F B (x ++ y) (rs ++ ss)) : FnParts f x y := by
  obtain ⟨fx, a1, h1, f1, b1⟩ := hx
  obtain ⟨fy, a2, h2, f2, b2⟩ := hy
  obtain ⟨_, a, h3, f3, b3⟩ := h
  rw [List.map_append, List.flatten_append] at h3 b3
  refine .gives _ _ _ _ _ h1 h2 h3 (fun l m e1 e2 => ?_) (fun l m e1 e2 => ?_)
  · rw [f3 _ (by simp [e1, e2]), bothAnswers_ok (f1 l e1) (f2 m e2), splitLike_append _ _ _ _ (by rw [fx]; exact e1),
      mapLabels_append _ _ _ _ _ _ (splitLike_length _ _).symm]
  · rw [b3 _ (by simp only [List.length_append, e1, e2]), bothAnswers_ok (b1 l e1) (b2 m e2), splitLike_append _ _ _ _ e1,
      mapLabels_append _ _ _ _ _ _ (by rw [splitLike_length, List.length_map])]

/-- Two neighbouring segments that are kept may count as one. -/
theorem SegLaw.split {f : Str → Res (Str × Aligner)} {rec : Str → Bool} {new : Str → Str} {F B : Str → List Int → List Int}
    {s v w : Str} {rs ss : List Str} (h : SegLaw f rec new F B s (rs ++ (v ++ w) :: ss)) (hv : rec v = false)
    (hw : rec w = false) (hvw : rec (v ++ w) = false) : SegLaw f rec new F B s (rs ++ v :: w :: ss) := by
  obtain ⟨h1, a, h2, h3, h4⟩ := h
  have hf : (rs ++ v :: w :: ss).flatten = (rs ++ (v ++ w) :: ss).flatten := by simp
  have hm : ((rs ++ v :: w :: ss).map fun w => if rec w then new w else w).flatten =
      ((rs ++ (v ++ w) :: ss).map fun w => if rec w then new w else w).flatten := by
    simp [hv, hw, hvw]
  have key : ∀ (g : List Str → List Str) (G : Str → List Int → List Int) (ls : List Int),
      (∀ u, rec u = false → g [u] = [u]) → (∀ us vs, g (us ++ vs) = g us ++ g vs) → (∀ us, (g us).length = us.length) →
      ls.length = (g (rs ++ (v ++ w) :: ss)).flatten.length →
      mapLabels rec G (rs ++ v :: w :: ss) (splitLike (g (rs ++ v :: w :: ss)) ls) =
        mapLabels rec G (rs ++ (v ++ w) :: ss) (splitLike (g (rs ++ (v ++ w) :: ss)) ls) := by
    intro g G ls g1 g2 g3 hl
    have hg : ∀ u vs, rec u = false → g (u :: vs) = u :: g vs := by
      intro u vs hu
      rw [show u :: vs = [u] ++ vs from rfl, g2, g1 u hu]
      rfl
    rw [g2, g2, hg v _ hv, hg w _ hw, hg _ _ hvw]
    rw [g2, hg _ _ hvw] at hl
    simp only [List.flatten_append, List.flatten_cons, List.length_append] at hl
    obtain ⟨l1, l2, rfl, hl1⟩ : ∃ l1 l2, ls = l1 ++ l2 ∧ l1.length = (g rs).flatten.length :=
      ⟨ls.take (g rs).flatten.length, ls.drop (g rs).flatten.length, (List.take_append_drop _ _).symm, by
        rw [List.length_take]; omega⟩
    rw [splitLike_append _ _ _ _ hl1, splitLike_append _ _ _ _ hl1,
      mapLabels_append _ _ _ _ _ _ (by rw [splitLike_length, g3]),
      mapLabels_append _ _ _ _ _ _ (by rw [splitLike_length, g3])]
    congr 1
    simp only [splitLike, mapLabels, List.zip_cons_cons, List.flatMap_cons, hv, hw, hvw, Bool.false_eq_true, if_false,
      List.length_append, List.drop_drop]
    rw [← List.append_assoc, ← List.take_add]
  refine ⟨hf.trans h1, a, by rw [hm]; exact h2, fun ls hl => ?_, fun ls hl => ?_⟩
  · rw [h3 ls hl]
    have := key id F ls (fun _ _ => rfl) (fun _ _ => rfl) (fun _ => rfl) (by simpa [h1] using hl)
    simp only [id] at this
    rw [this]
  · rw [hm] at hl
    rw [h4 ls hl]
    rw [key (List.map fun w => if rec w then new w else w) B ls (fun u hu => by simp [hu]) (fun _ _ => List.map_append)
      (fun _ => List.length_map ..) hl]

/-! ### Runs -/

theorem runs_of_isRuns {p : Char → Bool} {b : Bool} {rs : List Str} (h : IsRuns p b rs) : runs p rs.flatten = rs :=
  isRuns_unique p b rs h

theorem IsRuns.append {p : Char → Bool} {b c : Bool} {rs ss : List Str} (hr : IsRuns p b rs) (hs : IsRuns p c ss)
    (hj : ∀ d ∈ rs.flatten.getLast?, p d = !c) (he : rs = [] → b = c) : IsRuns p b (rs ++ ss) := by
  induction rs generalizing b with
  | nil => rw [he rfl]; exact hs
  | cons r rs ih =>
    obtain ⟨h1, h2, h3⟩ := hr
    refine ⟨h1, h2, ih h3 (fun d hd => hj d ?_) (fun e => ?_)⟩
    · rw [List.flatten_cons, List.getLast?_append]
      rw [hd]
      rfl
    · subst e
      obtain ⟨c', hc⟩ : ∃ d, r.getLast? = some d := ⟨_, List.getLast?_eq_some_getLast h1⟩
      have := hj c' (by simp [hc])
      rw [h2 c' (List.mem_of_getLast? hc)] at this
      rw [this]
      simp

/-- Where a run ends, the runs of the parts are the runs of the whole; where kept text meets kept text, the two
segments are one. -/
theorem runs_append (p : Char → Bool) (x y : Str) (h : PartedAt p x y) :
    runs p (x ++ y) = runs p x ++ runs p y ∨
      ∃ rs v w ss, runs p x = rs ++ [v] ∧ runs p y = w :: ss ∧ runs p (x ++ y) = rs ++ (v ++ w) :: ss ∧
        isRunOf p v = false ∧ isRunOf p w = false ∧ isRunOf p (v ++ w) = false := by
  obtain ⟨b, hb, hx⟩ := runs_isRuns p x
  obtain ⟨c, hc, hy⟩ := runs_isRuns p y
  have fx := runs_flatten p x
  have fy := runs_flatten p y
  by_cases hx0 : x = []
  · subst hx0; left; rfl
  by_cases hy0 : y = []
  · subst hy0; left
    rw [List.append_nil, show runs p [] = [] from rfl, List.append_nil]
  obtain ⟨d, hd⟩ : ∃ d, x.getLast? = some d := ⟨_, List.getLast?_eq_some_getLast hx0⟩
  obtain ⟨e, he⟩ : ∃ e, y.head? = some e := by
    cases y with
    | nil => exact absurd rfl hy0
    | cons e y => exact ⟨e, rfl⟩
  have hce := hc e he
  by_cases hde : p d = !c
  · left
    have := IsRuns.append hx hy (fun d' hd' => by
      rw [fx, hd] at hd'
      cases hd'
      exact hde) (fun e => by rw [← fx, e] at hx0; exact absurd rfl hx0)
    rw [← runs_of_isRuns this, List.flatten_append, fx, fy]
  · right
    have hpd : p d = c := by cases h1 : p d <;> cases c <;> simp_all
    have hc0 : c = false := by
      rcases h d hd e he with h1 | h1
      · rw [← hpd, h1]
      · rw [← hce, h1]
    subst hc0
    have hrne : runs p x ≠ [] := fun e => by rw [e] at fx; exact hx0 fx.symm
    obtain ⟨rs, v, hrv⟩ : ∃ rs v, runs p x = rs ++ [v] :=
      ⟨(runs p x).dropLast, (runs p x).getLast hrne, (List.dropLast_append_getLast hrne).symm⟩
    obtain ⟨w, ss, hws⟩ : ∃ w ss, runs p y = w :: ss := by
      cases hr : runs p y with
      | nil => rw [hr] at fy; exact absurd fy.symm hy0
      | cons w ss => exact ⟨w, ss, rfl⟩
    rw [hrv] at hx fx
    rw [hws] at hy fy
    obtain ⟨w1, w2, w3⟩ := hy
    have hvmem : v ∈ runs p x := by rw [hrv]; simp
    have hv0 := (mem_runs p x v hvmem).1
    have hlast : ∀ d', v.getLast? = some d' → p d' = false := by
      intro d' hd'
      have : x.getLast? = some d' := by
        rw [← fx, List.flatten_append, List.getLast?_append]
        simp [hd']
      rw [hd] at this
      cases this
      exact hpd
    -- the last run of the first part
    have hvu : Uniform p false v := by
      clear hb hc w3 ss hws fy hrv
      have : ∀ (b : Bool) (rs : List Str), IsRuns p b (rs ++ [v]) → Uniform p false v := by
        intro b rs
        induction rs generalizing b with
        | nil =>
          intro h
          obtain ⟨_, h2, _⟩ := h
          obtain ⟨d', hd'⟩ : ∃ d, v.getLast? = some d := ⟨_, List.getLast?_eq_some_getLast hv0⟩
          have := h2 d' (List.mem_of_getLast? hd')
          rw [hlast d' hd'] at this
          subst this
          exact h2
        | cons r rs ih => exact fun h => ih _ h.2.2
      exact this b rs hx
    have hall : IsRuns p b (rs ++ (v ++ w) :: ss) := by
      have : ∀ (b : Bool) (rs : List Str), IsRuns p b (rs ++ [v]) → IsRuns p b (rs ++ (v ++ w) :: ss) := by
        intro b rs
        induction rs generalizing b with
        | nil =>
          intro h
          obtain ⟨_, h2, _⟩ := h
          have hb : b = false := by
            obtain ⟨d', hd'⟩ : ∃ d, v.getLast? = some d := ⟨_, List.getLast?_eq_some_getLast hv0⟩
            rw [← h2 d' (List.mem_of_getLast? hd'), hlast d' hd']
          subst hb
          refine ⟨by simp [hv0], fun c hc => ?_, w3⟩
          rcases List.mem_append.mp hc with hc | hc
          · exact hvu c hc
          · exact w2 c hc
        | cons r rs ih => exact fun h => ⟨h.1, h.2.1, ih _ h.2.2⟩
      exact this b rs hx
    have hrun : ∀ u, u ≠ [] → Uniform p false u → isRunOf p u = false := fun u h1 h2 => isRunOf_uniform h1 h2
    refine ⟨rs, v, w, ss, hrv, hws, ?_, hrun v hv0 hvu, hrun w w1 w2, hrun _ (by simp [hv0]) fun c hc => ?_⟩
    · rw [← runs_of_isRuns hall]
      congr 1
      rw [← fx, ← fy]
      simp
    · rcases List.mem_append.mp hc with hc | hc
      · exact hvu c hc
      · exact w2 c hc

/-- Operators that replace runs of characters. -/
theorem runs_parts {f : Str → Res (Str × Aligner)} {p : Char → Bool} {q : Str → Bool} {new : Str → Str}
    {F B : Str → List Int → List Int} (hf : ∀ s, SegLaw f (fun r => isRunOf p r && q r) new F B s (runs p s)) (x y : Str)
    (h : PartedAt p x y) : FnParts f x y := by
  rcases runs_append p x y h with e | ⟨rs, v, w, ss, ex, ey, e, hv, hw, hvw⟩
  · have := hf (x ++ y)
    rw [e] at this
    exact (hf x).parts (hf y) this
  · have hxy := hf (x ++ y)
    have hx := hf x
    have hy := hf y
    rw [e] at hxy
    rw [ex] at hx
    rw [ey] at hy
    refine hx.parts hy ?_
    rw [List.append_assoc]
    exact hxy.split (by simp [hv]) (by simp [hw]) (by simp [hvw])

/-! ### Tokens -/

/-- The cuts of a text in two parts. -/
def joinCuts (ps : List (Str × Str)) (t : Str) : List (Str × Str) → Str → List (Str × Str) × Str
  | [], t' => (ps, t ++ t')
  | q :: qs, t' => (ps ++ (t ++ q.1, q.2) :: qs, t')

theorem layout_joinCuts (ps qs : List (Str × Str)) (t t' : Str) :
    layout (joinCuts ps t qs t').1 (joinCuts ps t qs t').2 = layout ps t ++ layout qs t' := by
  cases qs with
  | nil => simp [joinCuts, layout]
  | cons q qs => simp [joinCuts, layout]

theorem tokens_joinCuts (ps qs : List (Str × Str)) (t t' : Str) :
    (joinCuts ps t qs t').1.map Prod.snd = ps.map Prod.snd ++ qs.map Prod.snd := by
  cases qs <;> simp [joinCuts]

theorem tokenSegs_two (ps qs : List (Str × Str)) (ls : List Int) :
    tokenSegs (ps ++ qs) ls = tokenSegs ps ls ++ tokenSegs qs (ls.drop (layout ps []).length) := by
  induction ps generalizing ls with
  | nil => simp [tokenSegs, layout]
  | cons p ps ih =>
    simp only [List.cons_append, tokenSegs, ih]
    congr 3
    rw [List.drop_drop]
    congr 1
    simp [layout]
    omega

theorem tokenSegs_prefix (ps : List (Str × Str)) (l m : List Int) (h : (layout ps []).length ≤ l.length) :
    tokenSegs ps (l ++ m) = tokenSegs ps l := by
  induction ps generalizing l with
  | nil => rfl
  | cons p ps ih =>
    simp only [layout, List.flatMap_cons, List.length_append, List.append_nil] at h
    simp only [tokenSegs]
    rw [List.drop_append_of_le_length (by omega), List.drop_append_of_le_length (by omega),
      List.take_append_of_le_length (by rw [List.length_drop]; omega),
      ih (l.drop (p.1.length + p.2.length)) (by simp only [layout, List.length_drop, List.append_nil]; omega)]

theorem tokenSegs_joinCuts (ps qs : List (Str × Str)) (t t' : Str) (l m : List Int) (h : l.length = (layout ps t).length) :
    tokenSegs (joinCuts ps t qs t').1 (l ++ m) = tokenSegs ps l ++ tokenSegs qs m := by
  have hlen : (layout ps t).length = (layout ps []).length + t.length := by simp [layout]
  cases qs with
  | nil =>
    simp only [joinCuts]
    rw [tokenSegs_prefix _ _ _ (by omega), tokenSegs, List.append_nil]
  | cons q qs =>
    rw [joinCuts, tokenSegs_two, tokenSegs_prefix _ _ _ (by omega)]
    congr 1
    rw [List.drop_append_of_le_length (by omega)]
    have hr : (l.drop (layout ps []).length).length = t.length := by rw [List.length_drop]; omega
    have hd : ∀ k, (l.drop (layout ps []).length ++ m).drop (t.length + k) = m.drop k := by
      intro k
      rw [← List.drop_drop, List.drop_left' hr]
    simp only [tokenSegs, List.length_append]
    rw [hd, Nat.add_assoc, hd]

theorem charLabels_joinCuts (ps qs : List (Str × Str)) (t t' : Str) (l m : List Int) (h : l.length = ps.length)
    (h' : m.length = qs.length) :
    charLabels (joinCuts ps t qs t').1 (joinCuts ps t qs t').2 (l ++ m) = charLabels ps t l ++ charLabels qs t' m := by
  cases qs with
  | nil =>
    simp at h'
    subst h'
    simp only [joinCuts, List.append_nil]
    induction ps generalizing l with
    | nil => simp [charLabels, List.replicate_append_replicate]
    | cons p ps ih =>
      cases l with
      | nil => simp at h
      | cons y l =>
        simp only [charLabels, ih l (by simpa using h), List.append_assoc]
  | cons q qs =>
    cases m with
    | nil => simp at h'
    | cons y m =>
      rw [joinCuts, charLabels_append _ _ _ _ _ _ _ h.symm]
      simp only [charLabels]
      have : ∀ (ps : List (Str × Str)) (l : List Int), l.length = ps.length →
          charLabels ps (t ++ q.1) l = charLabels ps t l ++ List.replicate q.1.length 0 := by
        intro ps
        induction ps with
        | nil => intro l _; simp [charLabels, List.replicate_append_replicate]
        | cons p ps ih =>
          intro l hl
          cases l with
          | nil => simp at hl
          | cons y l => simp only [charLabels, ih l (by simpa using hl), List.append_assoc]
      rw [this ps l h]
      simp

theorem tokens_parts {f : Str → Res (List Str × Aligner)} {x y : Str} {ps qs : List (Str × Str)} {t t' : Str}
    {a₁ a₂ a : Aligner} (hx : f x = .ok (ps.map Prod.snd, a₁)) (hy : f y = .ok (qs.map Prod.snd, a₂))
    (h : f (x ++ y) = .ok ((joinCuts ps t qs t').1.map Prod.snd, a)) (ex : x = layout ps t) (ey : y = layout qs t')
    (h1 : TokenLabels a₁ ps t) (h2 : TokenLabels a₂ qs t')
    (h3 : TokenLabels a (joinCuts ps t qs t').1 (joinCuts ps t qs t').2) : FnParts f x y := by
  rw [tokens_joinCuts] at h
  have hn : (joinCuts ps t qs t').1.length = ps.length + qs.length := by
    have := congrArg List.length (tokens_joinCuts ps qs t t')
    simpa using this
  refine .gives _ _ _ _ _ hx hy h (fun l m e1 e2 => ?_) (fun l m e1 e2 => ?_)
  · rw [h3.forward _ (by rw [layout_joinCuts, ← ex, ← ey]; simp [e1, e2]),
      bothAnswers_ok (h1.forward l (by rw [← ex]; exact e1)) (h2.forward m (by rw [← ey]; exact e2)),
      tokenSegs_joinCuts _ _ _ _ _ _ (by rw [← ex]; exact e1), List.map_append]
  · rw [List.length_map] at e1 e2
    have hu : uintLabels (l ++ m) ↔ uintLabels l ∧ uintLabels m := by
      unfold uintLabels
      constructor
      · exact fun h => ⟨fun x hx => h x (List.mem_append_left _ hx), fun x hx => h x (List.mem_append_right _ hx)⟩
      · rintro ⟨h1, h2⟩ x hx
        rcases List.mem_append.mp hx with hx | hx
        · exact h1 x hx
        · exact h2 x hx
    have hl : (l ++ m).length = (joinCuts ps t qs t').1.length := by rw [hn]; simp [e1, e2]
    by_cases u1 : uintLabels l
    · by_cases u2 : uintLabels m
      · rw [h3.backward _ hl (hu.mpr ⟨u1, u2⟩), bothAnswers_ok (h1.backward l e1 u1) (h2.backward m e2 u2),
          charLabels_joinCuts _ _ _ _ _ _ e1 e2]
      · rw [h3.overflow _ hl (fun h => u2 (hu.mp h).2), h1.backward l e1 u1, h2.overflow m e2 u2]
        rfl
    · rw [h3.overflow _ hl (fun h => u1 (hu.mp h).1), h1.overflow l e1 u1]
      rfl

theorem Spec.Parted.tail {own : Char → Bool} {p : Str × Str} {ps : List (Str × Str)} (h : Parted own (p :: ps)) :
    Parted own ps := by
  cases ps with
  | nil => trivial
  | cons q ps => exact h.2

theorem parted_append {own : Char → Bool} {ps : List (Str × Str)} {q : Str × Str} {qs : List (Str × Str)}
    (h : Parted own ps) (h' : Parted own (q :: qs)) (g : Str)
    (hj : ∀ p ∈ ps.getLast?, g = [] → (∃ c ∈ p.2.getLast?, own c = true) ∨ ∃ c ∈ q.2.head?, own c = true) :
    Parted own (ps ++ (g, q.2) :: qs) := by
  have hq : Parted own ((g, q.2) :: qs) := by
    cases qs with
    | nil => trivial
    | cons r qs => exact ⟨h'.1, h'.2⟩
  induction ps with
  | nil => exact hq
  | cons p ps ih =>
    cases ps with
    | nil => exact ⟨hj p (by simp), hq⟩
    | cons r ps => exact ⟨h.1, ih h.2 fun p hp => hj p (by simpa using hp)⟩

theorem tokenizedBy_joinCuts {own : Char → Bool} {x y : Str} {ps qs : List (Str × Str)} {t t' : Str}
    (hx : TokenizedBy own x ps t) (hy : TokenizedBy own y qs t')
    (hc : CutAt (fun c => isSpace c || own c) x y) :
    TokenizedBy own (x ++ y) (joinCuts ps t qs t').1 (joinCuts ps t qs t').2 := by
  have htext : x ++ y = layout (joinCuts ps t qs t').1 (joinCuts ps t qs t').2 := by
    rw [layout_joinCuts, ← hx.text, ← hy.text]
  cases qs with
  | nil =>
    refine ⟨htext, hx.gaps, fun c hc => ?_, hx.nonempty, hx.solid, hx.alone, hx.parted⟩
    simp only [joinCuts] at hc
    rcases List.mem_append.mp hc with hc | hc
    · exact hx.last c hc
    · exact hy.last c hc
  | cons q qs =>
    have hmem : ∀ p, p ∈ ps ++ (t ++ q.1, q.2) :: qs → p ∈ ps ∨ p = (t ++ q.1, q.2) ∨ p ∈ qs := by
      intro p hp
      rcases List.mem_append.mp hp with hp | hp
      · exact Or.inl hp
      · rcases List.mem_cons.mp hp with hp | hp
        · exact Or.inr (Or.inl hp)
        · exact Or.inr (Or.inr hp)
    refine ⟨htext, fun p hp c hc => ?_, hy.last, fun p hp => ?_, fun p hp => ?_, fun p hp => ?_, ?_⟩
    · rcases hmem p hp with h | rfl | h
      · exact hx.gaps p h c hc
      · rcases List.mem_append.mp hc with hc | hc
        · exact hx.last c hc
        · exact hy.gaps q (by simp) c hc
      · exact hy.gaps p (by simp [h]) c hc
    · rcases hmem p hp with h | rfl | h
      · exact hx.nonempty p h
      · exact hy.nonempty q (by simp)
      · exact hy.nonempty p (by simp [h])
    · rcases hmem p hp with h | rfl | h
      · exact hx.solid p h
      · exact hy.solid q (by simp)
      · exact hy.solid p (by simp [h])
    · rcases hmem p hp with h | rfl | h
      · exact hx.alone p h
      · exact hy.alone q (by simp)
      · exact hy.alone p (by simp [h])
    · refine parted_append hx.parted hy.parted _ fun p hp hg => ?_
      rw [List.append_eq_nil_iff] at hg
      obtain ⟨g1, g2⟩ := hg
      have hpm := List.mem_of_getLast? hp
      obtain ⟨c, hcl⟩ : ∃ c, p.2.getLast? = some c := ⟨_, List.getLast?_eq_some_getLast (hx.nonempty p hpm)⟩
      obtain ⟨d, hdh⟩ : ∃ d, q.2.head? = some d := by
        cases hq : q.2 with
        | nil => exact absurd hq (hy.nonempty q (by simp))
        | cons d _ => exact ⟨d, rfl⟩
      have e1 : x.getLast? = some c := by
        rw [hx.text, g1, layout, List.append_nil]
        obtain ⟨pre, rfl⟩ : ∃ pre, ps = pre ++ [p] := by
          have hne : ps ≠ [] := fun e => by rw [e] at hpm; cases hpm
          refine ⟨ps.dropLast, ?_⟩
          rw [List.getLast?_eq_some_getLast hne] at hp
          cases hp
          exact (List.dropLast_append_getLast hne).symm
        simp [hcl]
      have e2 : y.head? = some d := by
        rw [hy.text]
        simp [layout, g2, hdh]
      have s1 := hx.solid p hpm c (List.mem_of_getLast? hcl)
      have s2 := hy.solid q (by simp) d (List.mem_of_mem_head? hdh)
      rcases hc c e1 d e2 with h | h
      · simp only [s1, Bool.false_or] at h
        exact Or.inl ⟨c, hcl, h⟩
      · simp only [s2, Bool.false_or] at h
        exact Or.inr ⟨d, hdh, h⟩

theorem cutter_parts {own : Char → Bool} {T : Str → Res (List Str × Aligner)} (hT : Cutter own T) (x y : Str)
    (h : CutAt (fun c => isSpace c || own c) x y) : FnParts T x y := by
  obtain ⟨a1, ps, t, h1, c1, l1⟩ := hT x
  obtain ⟨a2, qs, t', h2, c2, l2⟩ := hT y
  obtain ⟨a, rs, t'', h3, c3, l3⟩ := hT (x ++ y)
  obtain ⟨rfl, rfl⟩ := C40_cuts_unique _ _ _ _ _ _ c3 (tokenizedBy_joinCuts c1 c2 h)
  exact tokens_parts h1 h2 h3 c1.text c2.text l1 l2 l3

/-! ### Words -/

theorem Spec.NoneAcross.suffix {ws : List Str} {x x' y : Str} (h : NoneAcross ws x y) (hx : x' <:+ x) : NoneAcross ws x' y :=
  fun w hw v t e hv ht hs => h w hw v t e hv ht (hs.trans hx)

theorem prefix_noneAcross {ws : List Str} {x y w : Str} (h : NoneAcross ws x y) (hw : w ∈ ws) (hx : x ≠ []) :
    w <+: x ++ y ↔ w <+: x := by
  refine ⟨fun hp => ?_, fun hp => hp.trans (List.prefix_append _ _)⟩
  rcases Nat.le_total w.length x.length with hl | hl
  · exact List.prefix_of_prefix_length_le hp (List.prefix_append _ _) hl
  · obtain ⟨t, rfl⟩ := List.prefix_of_prefix_length_le (List.prefix_append x y) hp hl
    by_cases h0 : t = []
    · subst h0; simp
    · exact absurd ((List.prefix_append_right_inj x).mp hp) (h _ hw x t rfl hx h0 (List.suffix_refl _))

theorem bestWord_noneAcross {ws : List Str} {sh : Bool} {x y : Str} (h : NoneAcross ws x y) (hx : x ≠ []) (r : Option Str)
    (hb : BestWord ws sh x r) : BestWord ws sh (x ++ y) r := by
  cases r with
  | none => exact fun v hv hne hp => hb v hv hne ((prefix_noneAcross h hv hx).mp hp)
  | some w =>
    obtain ⟨h1, h2, h3, h4⟩ := hb
    exact ⟨h1, h2, h3.trans (List.prefix_append _ _), fun v hv hne hp => h4 v hv hne ((prefix_noneAcross h hv hx).mp hp)⟩

theorem wordSegs_append {ws : List Str} {sh : Bool} {x y : Str} {rs ss : List Str} (hx : WordSegs ws sh x rs)
    (hy : WordSegs ws sh y ss) (h : NoneAcross ws x y) : WordSegs ws sh (x ++ y) (rs ++ ss) := by
  induction hx with
  | nil => exact hy
  | char c rest segs hb _ ih =>
    exact .char c _ _ (bestWord_noneAcross h (by simp) none hb) (ih (NoneAcross.suffix h (List.suffix_cons _ _)))
  | word w rest segs hb _ ih =>
    have := bestWord_noneAcross h (by
      have := hb.2.1
      simp [this]) (some w) hb
    rw [List.append_assoc] at this ⊢
    exact .word w _ _ this (ih (NoneAcross.suffix h (List.suffix_append _ _)))

theorem segmented_append {ws : List Str} (hne : ∀ w ∈ ws, w ≠ []) {x y : Str} {rs ss : List Str} (hx : Segmented ws x rs)
    (hy : Segmented ws y ss) (h : NoneAcross ws x y) : Segmented ws (x ++ y) (rs ++ ss) := by
  induction hx with
  | nil => exact hy
  | char c rest segs hb _ ih =>
    exact .char c _ _ (fun w hw hp => hb w hw ((prefix_noneAcross h hw (by simp)).mp hp))
      (ih (NoneAcross.suffix h (List.suffix_cons _ _)))
  | word w rest segs hw hb _ ih =>
    rw [List.append_assoc]
    refine .word w _ _ hw (fun v hv hp => ?_) (ih (NoneAcross.suffix h (List.suffix_append _ _)))
    rw [← List.append_assoc] at hp
    exact hb v hv ((prefix_noneAcross h hv (by simp [hne w hw])).mp hp)

end Uttut
