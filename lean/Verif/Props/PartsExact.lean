import Verif.Props.Parts

/-! C79: exact conditions for the number recognisers and for `CustomWordTokenizer`. -/

namespace Uttut

open Spec

theorem takeWhile_stop {p : Char → Bool} {a b : Str} (ha : ∀ c ∈ a, p c = true) (hb : ∀ c ∈ b.head?, p c = false) :
    (a ++ b).takeWhile p = a := by
  induction a with
  | nil =>
    cases b with
    | nil => rfl
    | cons c b => simp [hb c rfl]
  | cons c a ih =>
    rw [List.cons_append, List.takeWhile_cons, if_pos (ha c (by simp)), ih fun d hd => ha d (List.mem_cons_of_mem _ hd)]

/-- Where run meets run, the two are one run of the whole. -/
theorem runs_meet (p : Char → Bool) (x y : Str) (c d : Char) (hx : x.getLast? = some c) (hy : y.head? = some d)
    (hc : p c = true) (hd : p d = true) :
    ∃ rs ss, runs p x = rs ++ [endRun p x] ∧ runs p y = startRun p y :: ss ∧
      runs p (x ++ y) = rs ++ (endRun p x ++ startRun p y) :: ss ∧ endRun p x ≠ [] ∧ startRun p y ≠ [] ∧
      (∀ e ∈ endRun p x, p e = true) ∧ ∀ e ∈ startRun p y, p e = true := by
  obtain ⟨b, hb, rx⟩ := runs_isRuns p x
  obtain ⟨b', hb', ry⟩ := runs_isRuns p y
  have fx := runs_flatten p x
  have fy := runs_flatten p y
  have hx0 : x ≠ [] := fun e => by rw [e] at hx; cases hx
  have hy0 : y ≠ [] := fun e => by rw [e] at hy; cases hy
  have e' := hb' d hy
  rw [hd] at e'
  subst e'
  have hrne : runs p x ≠ [] := fun e => by rw [e] at fx; exact hx0 fx.symm
  obtain ⟨rs, v, hrv⟩ : ∃ rs v, runs p x = rs ++ [v] :=
    ⟨(runs p x).dropLast, (runs p x).getLast hrne, (List.dropLast_append_getLast hrne).symm⟩
  obtain ⟨w, ss, hws⟩ : ∃ w ss, runs p y = w :: ss := by
    cases hr : runs p y with
    | nil => rw [hr] at fy; exact absurd fy.symm hy0
    | cons w ss => exact ⟨w, ss, rfl⟩
  rw [hrv] at rx fx
  rw [hws] at ry fy
  obtain ⟨w1, w2, w3⟩ := ry
  have key : ∀ (b : Bool) (rs : List Str), IsRuns p b (rs ++ [v]) → v ≠ [] ∧ ∃ b', Uniform p b' v ∧
      (∀ e ∈ rs.flatten.getLast?, p e = !b') ∧ (Uniform p true v → IsRuns p b (rs ++ (v ++ w) :: ss)) := by
    intro b rs
    induction rs generalizing b with
    | nil =>
      intro h
      refine ⟨h.1, b, h.2.1, by simp, fun hv => ⟨by simp [h.1], ?_, ?_⟩⟩
      · intro e he
        have hbt : b = true := by
          obtain ⟨z, v', hz⟩ := List.exists_cons_of_ne_nil h.1
          rw [← h.2.1 z (by simp [hz]), hv z (by simp [hz])]
        rw [hbt]
        rcases List.mem_append.mp he with he | he
        · exact hv e he
        · exact w2 e he
      · have hbt : b = true := by
          obtain ⟨z, v', hz⟩ := List.exists_cons_of_ne_nil h.1
          rw [← h.2.1 z (by simp [hz]), hv z (by simp [hz])]
        rw [hbt]
        exact w3
    | cons r rs ih =>
      intro h
      obtain ⟨h1, b', h2, h3, h4⟩ := ih _ h.2.2
      refine ⟨h1, b', h2, ?_, fun hv => ⟨h.1, h.2.1, h4 hv⟩⟩
      intro e he
      rw [List.flatten_cons, List.getLast?_append] at he
      cases hl : rs.flatten.getLast? with
      | some z =>
        rw [hl] at he
        exact h3 e (by rw [hl]; exact he)
      | none =>
        rw [hl] at he
        have : rs = [] := by
          cases rs with
          | nil => rfl
          | cons r' rs' =>
            have := List.getLast?_eq_none_iff.mp hl
            have h5 := h.2.2.1
            simp only [List.flatten_cons, List.append_eq_nil_iff] at this
            exact absurd this.1 h5
        subst this
        have hb2 : b' = !b := by
          obtain ⟨z, v', hz⟩ := List.exists_cons_of_ne_nil h1
          rw [← h2 z (by simp [hz]), h.2.2.2.1 z (by simp [hz])]
        have he' : e ∈ r.getLast? := by simpa using he
        rw [hb2, h.2.1 e (List.mem_of_getLast? he')]
        simp
  obtain ⟨v1, b', v2, v3, v4⟩ := key b rs rx
  have hlast : v.getLast? = some c := by
    obtain ⟨z, hz⟩ : ∃ z, v.getLast? = some z := ⟨_, List.getLast?_eq_some_getLast v1⟩
    have : x.getLast? = some z := by
      rw [← fx, List.flatten_append, List.getLast?_append]
      simp [hz]
    rw [hz, ← this, hx]
  have hbt : b' = true := by rw [← v2 c (List.mem_of_getLast? hlast), hc]
  subst hbt
  have hend : endRun p x = v := by
    unfold endRun
    rw [← fx, List.flatten_append, List.flatten_singleton, List.reverse_append,
      takeWhile_stop (fun e he => v2 e (List.mem_reverse.mp he)) (fun e he => by
        rw [List.head?_reverse] at he
        exact v3 e he), List.reverse_reverse]
  have hstart : startRun p y = w := by
    unfold startRun
    rw [← fy, List.flatten_cons, takeWhile_stop w2]
    intro e he
    cases ss with
    | nil => cases he
    | cons s ss =>
      obtain ⟨s1, s2, _⟩ := w3
      obtain ⟨z, s', rfl⟩ := List.exists_cons_of_ne_nil s1
      cases he
      exact s2 _ (by simp)
  refine ⟨rs, ss, by rw [hend]; exact hrv, by rw [hstart]; exact hws, ?_, by rw [hend]; exact v1, by rw [hstart]; exact w1,
    by rw [hend]; exact v2, by rw [hstart]; exact w2⟩
  rw [hend, hstart, ← runs_of_isRuns (v4 v2)]
  congr 1
  rw [← fx, ← fy]
  simp

theorem run_ends (p : Char → Bool) (x y : Str) (h : ¬ PartedAt p x y) :
    ∃ c d, x.getLast? = some c ∧ y.head? = some d ∧ p c = true ∧ p d = true := by
  unfold PartedAt at h
  push Not at h
  obtain ⟨c, hc, d, hd, h⟩ := h
  exact ⟨c, d, hc, hd, by simpa using h.1, by simpa using h.2⟩

theorem parted_of_nil (p : Char → Bool) (x y : Str) (h : endRun p x = [] ∨ startRun p y = []) : PartedAt p x y := by
  intro c hc d hd
  by_contra hn
  push Not at hn
  obtain ⟨_, _, _, _, _, h1, h2, _⟩ := runs_meet p x y c d hc hd (by simpa using hn.1) (by simpa using hn.2)
  rcases h with h | h
  · exact h1 h
  · exact h2 h

/-- A recogniser works part by part exactly where no number is at the split. -/
theorem numbers_exact {op : Op} {u : Unicode} {q : Str → Bool} {token : Str} {F : List Int → List Int}
    {f : Str → Res (Str × Aligner)} (hi : op.cls.inputType = .str) (ho : op.cls.outputType = .str) (hr : op.run = strOp f)
    (h : ∀ s, NumberOp u q token F f s) (ht : ∀ c ∈ token.head?, numeric u c = false) (ht0 : token ≠ []) (x y : Str) :
    InParts (opOutcome op) (.str x) (.str y) ↔ NoNumberAt (numeric u) q x y := by
  by_cases hp : PartedAt (numeric u) x y
  · refine iff_of_true (inParts_strOp hi ho hr (runs_parts (number_segLaw h) x y hp)) ?_
    by_cases he : endRun (numeric u) x = []
    · exact .inl he
    · by_cases hs : startRun (numeric u) y = []
      · exact .inr (.inl hs)
      · exfalso
        have hx0 : x.reverse.takeWhile (numeric u) ≠ [] := fun e => he (by unfold endRun; rw [e]; rfl)
        cases hx : x.getLast? with
        | none => rw [List.getLast?_eq_none_iff.mp hx] at hx0; exact hx0 rfl
        | some c =>
          cases hy : y.head? with
          | none => rw [List.head?_eq_none_iff.mp hy] at hs; exact hs rfl
          | some d =>
            rcases hp c hx d hy with hc | hd
            · obtain ⟨x', rfl⟩ := List.getLast?_eq_some_iff.mp hx
              rw [List.reverse_append, List.reverse_singleton, List.singleton_append, List.takeWhile_cons, hc] at hx0
              exact hx0 rfl
            · obtain ⟨y', rfl⟩ := List.head?_eq_some_iff.mp hy
              unfold startRun at hs
              rw [List.takeWhile_cons, hd] at hs
              exact hs rfl
  · obtain ⟨c, d, hx, hy, hc, hd⟩ := run_ends _ _ _ hp
    obtain ⟨rs, ss, ex, ey, exy, hv0, hw0, hv, hw⟩ := runs_meet (numeric u) x y c d hx hy hc hd
    have isRun : ∀ v : Str, v ≠ [] → (∀ e ∈ v, numeric u e = true) → isRunOf (numeric u) v = true := by
      intro v h0 hv
      obtain ⟨z, v', rfl⟩ := List.exists_cons_of_ne_nil h0
      exact hv z (by simp)
    have lx := number_segLaw h x
    have ly := number_segLaw h y
    have lxy := number_segLaw h (x ++ y)
    rw [ex] at lx
    rw [ey] at ly
    rw [exy] at lxy
    unfold NoNumberAt
    generalize endRun (numeric u) x = v at *
    generalize startRun (numeric u) y = w at *
    have hvw : ∀ e ∈ v ++ w, numeric u e = true := fun e he => (List.mem_append.mp he).elim (hv e) (hw e)
    constructor
    · intro hin
      right; right
      obtain ⟨_, a1, g1, _⟩ := lx
      obtain ⟨_, a2, g2, _⟩ := ly
      obtain ⟨_, a3, g3, _⟩ := lxy
      have tr : ∀ s t a, f s = .ok (t, a) → op.transform (.str s) = .ok (.str t, a) := by
        intro s t a hs
        unfold Op.transform
        rw [hr, hi, ho, if_neg (by simp [Seq.type])]
        show ((f s >>= _) >>= _) = _
        rw [hs]
        rfl
      have hj := joined_str_eq (inParts_joined hin (.str _ _) (tr _ _ _ g1) (tr _ _ _ g2) (tr _ _ _ g3))
      simp only [List.map_append, List.map_cons, List.map_nil, List.flatten_append, List.flatten_cons, List.flatten_nil,
        List.append_nil, isRun v hv0 hv, isRun w hw0 hw, isRun (v ++ w) (by simp [hv0]) hvw, Bool.true_and,
        List.append_assoc] at hj
      have hj := List.append_cancel_left hj
      rw [← List.append_assoc] at hj
      have hj := List.append_cancel_right hj
      obtain ⟨z, tk, htk⟩ := List.exists_cons_of_ne_nil ht0
      obtain ⟨z1, v', hv'⟩ := List.exists_cons_of_ne_nil hv0
      obtain ⟨z2, w', hw'⟩ := List.exists_cons_of_ne_nil hw0
      have n0 := ht z (by rw [htk]; rfl)
      have n1 := hv z1 (by simp [hv'])
      have n2 := hw z2 (by simp [hw'])
      cases qv : q v <;> cases qw : q w <;> cases qvw : q (v ++ w) <;> simp only [qv, qw, qvw, if_true, if_false, Bool.false_eq_true] at hj
      · exact ⟨rfl, rfl, rfl⟩
      · rw [htk, hv'] at hj
        injection hj with e1 _
        rw [e1, n1] at n0; cases n0
      · have := List.append_cancel_left hj
        rw [htk, hw'] at this
        injection this with e1 _
        rw [← e1, n2] at n0; cases n0
      · rw [htk, hv'] at hj
        injection hj with e1 _
        rw [e1, n1] at n0; cases n0
      · rw [htk, hv'] at hj
        injection hj with e1 _
        rw [← e1, n1] at n0; cases n0
      · have := congrArg List.length hj
        rw [List.length_append, hw', List.length_cons] at this
        omega
      · rw [htk, hv'] at hj
        injection hj with e1 _
        rw [← e1, n1] at n0; cases n0
      · have := congrArg List.length hj
        rw [List.length_append, htk, List.length_cons] at this
        omega
    · rintro (h1 | h1 | ⟨q1, q2, q3⟩)
      · exact absurd h1 hv0
      · exact absurd h1 hw0
      · refine inParts_strOp hi ho hr (lx.parts ly ?_)
        rw [List.append_assoc]
        exact lxy.split (by simp [q1]) (by simp [q2]) (by simp [q3])

/-- C79: for the number recognisers the exact condition: no number characters meet at the split, or those that meet are
no number, neither on the one side nor on the other nor together. -/
theorem C79_numbers_exact (env : Env) (hd : AsciiDigits env.u) (op : Op) (x y : Str) :
    (∀ name ∈ ["IntToken", "IntTokenWithSpace", "NumTokenWithSpace"], Made env name op →
      (InParts (opOutcome op) (.str x) (.str y) ↔ NoNumberAt (numeric env.u) (isInteger env.u) x y)) ∧
    (∀ name ∈ ["FloatToken", "FloatTokenWithSpace"], Made env name op →
      (InParts (opOutcome op) (.str x) (.str y) ↔ NoNumberAt (numeric env.u) (isFloat env.u) x y)) := by
  have off : ∀ c : Char, c.toNat < 128 → c ∉ "0123456789".toList → c ≠ '.' →
      "０１２３４５６７８９".toList.contains c = false → numeric env.u c = false := by
    intro c h1 h2 h3 h4
    unfold numeric digit
    have : env.u.isDecimal c = false := by
      cases he : env.u.isDecimal c
      · rfl
      · exact absurd ((hd c h1).mp he) h2
    rw [this, h4]
    simp [h3]
  have hdot : env.u.isDecimal '.' = false := by
    cases he : env.u.isDecimal '.'
    · rfl
    · exact absurd ((hd '.' (by decide)).mp he) (by decide)
  have h_ : numeric env.u '_' = false := off _ (by decide) (by decide) (by decide) (by decide)
  have hs : numeric env.u ' ' = false := off _ (by decide) (by decide) (by decide) (by decide)
  have t1 : ∀ (t : Str), ∀ c ∈ ('_' :: t).head?, numeric env.u c = false := fun t c hc => by cases hc; exact h_
  have t2 : ∀ (t : Str), ∀ c ∈ (' ' :: t).head?, numeric env.u c = false := fun t c hc => by cases hc; exact hs
  refine ⟨fun name hn h => ?_, fun name hn h => ?_⟩ <;> simp only [List.mem_cons, List.not_mem_nil, or_false] at hn
  · rcases hn with rfl | rfl | rfl <;> rw [made_simple rfl h]
    · exact numbers_exact rfl rfl rfl (fun s => C18_C19_int_token env.σ env.u s) (t1 _) (by decide) x y
    · exact numbers_exact rfl rfl rfl (fun s => C18_C19_int_token_with_space env.σ env.u s) (t2 _) (by decide) x y
    · exact numbers_exact rfl rfl rfl (fun s => C18_C19_num_token_with_space env.σ env.u s) (t2 _) (by decide) x y
  · rcases hn with rfl | rfl <;> rw [made_simple rfl h]
    · exact numbers_exact rfl rfl rfl (fun s => C18_C19_float_token env.σ env.u hdot s) (t1 _) (by decide) x y
    · exact numbers_exact rfl rfl rfl (fun s => C18_C19_float_token_with_space env.σ env.u hdot s) (t2 _) (by decide) x y

theorem tokOp_run {op : Op} {f : Str → Res (List Str × Aligner)} (hi : op.cls.inputType = .str)
    (ho : op.cls.outputType = .list) (hr : op.run = tokOp f) {s : Str} {t : List Str} {a : Aligner} (h : f s = .ok (t, a)) :
    op.transform (.str s) = .ok (.list (t.map Tok.str), a) := by
  unfold Op.transform
  rw [hr, hi, ho, if_neg (by simp [Seq.type])]
  show ((f s >>= _) >>= _) = _
  rw [h]
  rfl

/-- `12.` and `.5`: no number on either side, and none together; not so `1` and `2`, nor for floats `1` and `.5`. -/
example : NoNumberAt (numeric asciiUnicode) (isInteger asciiUnicode) "12.".toList ".5 a".toList ∧
    ¬ NoNumberAt (numeric asciiUnicode) (isInteger asciiUnicode) "a 1".toList "2 b".toList ∧
    ¬ NoNumberAt (numeric asciiUnicode) (isFloat asciiUnicode) "a 1".toList ".5".toList := by
  unfold NoNumberAt
  decide

/-- C79: for `CustomWordTokenizer(user_words, shortest)` the exact condition: the division of the whole text is that of
the parts, the one after the other. -/
theorem C79_custom_words_exact (env : Env) (op : Op) (ws : List Str) (sh : Bool)
    (h : create env "CustomWordTokenizer" [.list (ws.map PyVal.str), .bool sh] [] = .ok op) (x y : Str) :
    InParts (opOutcome op) (.str x) (.str y) ↔
      ∃ rs ss, WordSegs ws sh x rs ∧ WordSegs ws sh y ss ∧ WordSegs ws sh (x ++ y) (rs ++ ss) := by
  obtain ⟨hc, hi⟩ := create_init (c := Builtin.customTok env) (vals := [.list (ws.map PyVal.str), .bool sh]) rfl h rfl
  have hi : (Builtin.userWords (.list (ws.map PyVal.str)) >>= fun t =>
    (.ok (tokOp (CustomWordTokenizer.transform env.σ t sh)) : Res _)) = .ok op.run := hi
  rw [userWords_strings] at hi
  obtain ⟨T, ht, hi⟩ := bind_eq_ok hi
  have hr := (Except.ok.inj hi).symm
  obtain ⟨a1, rs, h1, w1, f1, l1⟩ := C37_C42_custom env.σ ws T ht sh x
  obtain ⟨a2, ss, h2, w2, f2, l2⟩ := C37_C42_custom env.σ ws T ht sh y
  obtain ⟨a3, ts, h3, w3, f3, l3⟩ := C37_C42_custom env.σ ws T ht sh (x ++ y)
  constructor
  · intro hin
    refine ⟨rs, ss, w1, w2, ?_⟩
    have tr : ∀ s t a, CustomWordTokenizer.transform env.σ T sh s = .ok (t, a) →
        op.transform (.str s) = .ok (.list (t.map Tok.str), a) :=
      fun s t a hs => tokOp_run (by rw [hc]; rfl) (by rw [hc]; rfl) hr hs
    have hj := joined_list_eq (inParts_joined hin (.str _ _) (tr _ _ _ h1) (tr _ _ _ h2) (tr _ _ _ h3))
    have : ts = rs ++ ss := by
      rw [← List.map_append] at hj
      exact List.map_injective_iff.mpr (fun _ _ e => Tok.str.inj e) hj
    rw [← this]
    exact w3
  · rintro ⟨rs', ss', e1, e2, e3⟩
    refine inParts_tokOp (by rw [hc]; rfl) (by rw [hc]; rfl) hr ?_
    have e1 := C37_division_unique ws sh _ _ _ w1 e1
    have e2 := C37_division_unique ws sh _ _ _ w2 e2
    have e3 := C37_division_unique ws sh _ _ _ w3 e3
    subst e1 e2 e3
    have hj : joinCuts (rs.map fun t => (([] : Str), t)) [] (ss.map fun t => (([] : Str), t)) [] =
        ((rs ++ ss).map fun t => (([] : Str), t), []) := by
      cases ss <;> simp [joinCuts]
    have hs : ∀ rs : List Str, (rs.map fun t => (([] : Str), t)).map Prod.snd = rs := by
      intro rs
      rw [List.map_map]
      exact List.map_id _
    have hlay : ∀ rs : List Str, rs.flatten = layout (rs.map fun t => (([] : Str), t)) [] := by
      intro rs
      rw [layout, List.append_nil, List.flatMap_map]
      exact List.flatMap_id.symm
    exact tokens_parts (ps := rs.map fun t => (([] : Str), t)) (qs := ss.map fun t => (([] : Str), t)) (t := []) (t' := [])
      (by rw [hs]; exact h1) (by rw [hs]; exact h2) (by rw [hj, hs]; exact h3) (by rw [← hlay, f1]) (by rw [← hlay, f2]) l1 l2
      (by rw [hj]; exact l3)

/-- With the words `abc` and `bcd`, the text `abcd` is divided into `abc` and `d`: as its parts `abc` and `d` are, though
`bcd` goes across. -/
example : ∃ rs ss, WordSegs ["abc".toList, "bcd".toList] false "abc".toList rs ∧
    WordSegs ["abc".toList, "bcd".toList] false "d".toList ss ∧
    WordSegs ["abc".toList, "bcd".toList] false ("abc".toList ++ "d".toList) (rs ++ ss) ∧
    ¬ NoneAcross ["abc".toList, "bcd".toList] "abc".toList "d".toList := by
  have hd : WordSegs ["abc".toList, "bcd".toList] false "d".toList ["d".toList] :=
    .char 'd' [] [] (by unfold BestWord; decide) .nil
  refine ⟨["abc".toList], ["d".toList], .word "abc".toList [] [] (by unfold BestWord; decide) .nil, hd,
    .word "abc".toList "d".toList _ (by unfold BestWord; decide) hd, fun h => ?_⟩
  exact h "bcd".toList (by simp) "bc".toList "d".toList (by decide) (by decide) (by decide) (by decide) (by decide)

end Uttut
