import Verif.Spec.Ink
import Verif.Props.Interchange
import Verif.Props.Parts
import Verif.Props.WordZh
import Verif.Props.Frame

/-!
C109: steps that only deal with white space leave the other characters and their labels alone; what a pipe of such steps
and a tokenizer does with labels depends on the tokens only.
-/

namespace Uttut

open Spec

/-! ### `AddWhitespaceAroundWordnZhChar` -/

theorem spaced_count (ws : List Str) (seg : Str) : solidCount (spaced ws seg) = solidCount seg := by
  unfold spaced
  split
  · rw [solidCount_append, solidCount_append, solidCount_spaces (x := [' ']) (by simp; decide)]
    omega
  · rfl

theorem spread_spaced (seg : Str) (z : List Int) (hz : z.length = solidCount seg) :
    spreadOver ([' '] ++ seg ++ [' ']) z = 0 :: spreadOver seg z ++ [0] := by
  have e1 : isSpace ' ' = true := by decide
  have e2 : spreadOver (' ' :: (seg ++ [' '])) z = 0 :: spreadOver (seg ++ [' ']) z := by
    conv => lhs; unfold spreadOver
    rw [if_pos e1]
  show spreadOver (' ' :: (seg ++ [' '])) z = _
  rw [e2]
  have := spreadOver_append seg [' '] z [] hz
  rw [List.append_nil] at this
  rw [this, spreadOver_spaces [' '] [] (by simp; decide)]
  rfl

theorem words_forward (ws segs : List Str) (ls : List Int) (hl : ls.length = segs.flatten.length) :
    (mapLabels (spacedSeg ws) (fun _ x => 0 :: x ++ [0]) segs (splitLike segs ls)).length =
        (segs.flatMap (spaced ws)).length ∧
      solidOf (segs.flatMap (spaced ws)) (mapLabels (spacedSeg ws) (fun _ x => 0 :: x ++ [0]) segs (splitLike segs ls)) =
        solidOf segs.flatten ls := by
  induction segs generalizing ls with
  | nil => exact ⟨rfl, by cases ls <;> rfl⟩
  | cons r rs ih =>
    rw [List.flatten_cons, List.length_append] at hl
    obtain ⟨i1, i2⟩ := ih (ls.drop r.length) (by rw [List.length_drop]; omega)
    have hseg : r.length = (ls.take r.length).length := by rw [List.length_take]; omega
    have e : solidOf (r ++ rs.flatten) ls = solidOf r (ls.take r.length) ++ solidOf rs.flatten (ls.drop r.length) := by
      conv => lhs; rw [← List.take_append_drop r.length ls]
      exact solidOf_append _ _ _ _ hseg
    have hstep : mapLabels (spacedSeg ws) (fun _ x => 0 :: x ++ [0]) (r :: rs) (splitLike (r :: rs) ls) =
        (if spacedSeg ws r then 0 :: ls.take r.length ++ [0] else ls.take r.length) ++
          mapLabels (spacedSeg ws) (fun _ x => 0 :: x ++ [0]) rs (splitLike rs (ls.drop r.length)) := by
      simp only [mapLabels, splitLike, List.zip_cons_cons, List.flatMap_cons]
    have hone : (spaced ws r).length = (if spacedSeg ws r then 0 :: ls.take r.length ++ [0] else ls.take r.length).length ∧
        solidOf (spaced ws r) (if spacedSeg ws r then 0 :: ls.take r.length ++ [0] else ls.take r.length) =
          solidOf r (ls.take r.length) := by
      unfold spaced
      by_cases h : spacedSeg ws r = true
      · rw [if_pos h, if_pos h]
        refine ⟨by simp only [List.length_append, List.length_cons, List.length_nil, ← hseg]; omega, ?_⟩
        rw [show (0 :: ls.take r.length ++ [0] : List Int) = [0] ++ ls.take r.length ++ [0] from rfl,
          solidOf_append _ _ _ _ (by simp only [List.length_append, ← hseg, List.length_cons, List.length_nil]),
          solidOf_append _ _ _ _ (by rfl), solidOf_spaces [' '] _ (by simp; decide),
          List.append_nil, List.nil_append]
      · rw [if_neg h, if_neg h]
        exact ⟨hseg, rfl⟩
    rw [hstep, List.flatMap_cons, List.flatten_cons, e]
    refine ⟨by rw [List.length_append, List.length_append, i1, hone.1], ?_⟩
    rw [solidOf_append _ _ _ _ hone.1, i2, hone.2]

theorem words_backward (ws segs : List Str) (zs : List Int) (hz : zs.length = solidCount segs.flatten) :
    solidCount (segs.flatMap (spaced ws)) = solidCount segs.flatten ∧
    mapLabels (spacedSeg ws) (fun _ x => (x.drop 1).dropLast) segs
        (splitLike (segs.map (spaced ws)) (spreadOver (segs.flatMap (spaced ws)) zs)) = spreadOver segs.flatten zs := by
  induction segs generalizing zs with
  | nil => exact ⟨rfl, rfl⟩
  | cons r rs ih =>
    rw [List.flatten_cons] at hz
    have hz' := hz
    rw [solidCount_append] at hz'
    obtain ⟨i1, i2⟩ := ih (zs.drop (solidCount r)) (by rw [List.length_drop]; omega)
    have hcount := spaced_count ws r
    rw [List.flatMap_cons, List.flatten_cons, solidCount_append, solidCount_append, hcount, i1]
    refine ⟨rfl, ?_⟩
    rw [spreadOver_take _ _ _ hz, spreadOver_take _ _ _ (by rw [solidCount_append, hcount, i1]; exact hz'), hcount, ← i2]
    have hlen : (spreadOver (spaced ws r) (zs.take (solidCount r))).length = (spaced ws r).length := spreadOver_length _ _
    simp only [List.map_cons, mapLabels, splitLike, List.zip_cons_cons, List.flatMap_cons]
    rw [List.take_left' hlen, List.drop_left' hlen]
    congr 1
    unfold spaced
    by_cases h : spacedSeg ws r = true
    · rw [if_pos h, if_pos h, spread_spaced _ _ (by rw [List.length_take]; omega)]
      simp
    · rw [if_neg h, if_neg h]

theorem words_carry (σ : SetOrder) (ws : List Str) (t : Trie) (ht : Trie.ofUserWords ws = .ok t) (sh : Bool) (s : Str) :
    ∃ a t', AddWhitespaceAroundWordnZhChar.transform σ t sh s = .ok (t', a) ∧ Carry a s t' ∧
      ink t' = ink s := by
  obtain ⟨a, segs, h1, h2, h3, h4, h5, h6, _⟩ := C38_spaces σ ws t ht sh s
  subst h2
  refine ⟨a, _, h3, ⟨h4.input, fun ls hl => ?_, ?_, fun zs _ hz => ?_⟩, ?_⟩
  · obtain ⟨f1, f2⟩ := words_forward ws segs ls hl
    exact ⟨_, h5 ls hl, f1, f2⟩
  · exact (words_backward ws segs (List.replicate (solidCount segs.flatten) 0) (by simp)).1
  · rw [h6 _ (spreadOver_length _ _), (words_backward ws segs zs hz).2]
  · unfold ink
    clear h1 h3 h4 h5 h6
    induction segs with
    | nil => rfl
    | cons r rs ih =>
      rw [List.flatMap_cons, List.flatten_cons, List.filter_append, List.filter_append, ih]
      congr 1
      unfold spaced
      split
      · rw [List.filter_append, List.filter_append]
        have : ([' '] : Str).filter (fun c => !isSpace c) = [] := by decide
        rw [this]
        simp
      · rfl

/-! ### the other steps -/

theorem ink_filter_runs (b : Bool) (rs : List Str) (h : IsRuns isSpace b rs) :
    ink (mergedRuns rs).flatten = ink rs.flatten := by
  induction rs generalizing b with
  | nil => rfl
  | cons r rs ih =>
    obtain ⟨h1, h2, h3⟩ := h
    have hm : mergedRuns (r :: rs) = (if b then [' '] else r) :: mergedRuns rs := by
      simp only [mergedRuns, List.map_cons, isRunOf_uniform h1 h2]
    have hi := ih (!b) h3
    unfold ink at hi ⊢
    rw [hm, List.flatten_cons, List.flatten_cons, List.filter_append, List.filter_append, hi]
    congr 1
    cases b with
    | false => rfl
    | true =>
      have e1 : ([' '] : Str).filter (fun c => !isSpace c) = [] := by decide
      have e2 : r.filter (fun c => !isSpace c) = [] := by
        rw [List.filter_eq_nil_iff]
        intro c hc
        rw [h2 c hc]
        decide
      rw [if_pos rfl, e1, e2]

theorem ink_spaces {x : Str} (h : ∀ c ∈ x, isSpace c = true) : ink x = [] := by
  unfold ink
  rw [List.filter_eq_nil_iff]
  intro c hc
  rw [h c hc]
  decide

theorem ink_append (x y : Str) : ink (x ++ y) = ink x ++ ink y := List.filter_append ..

theorem ink_around (valid : Char → Bool) (s : Str) :
    ink (s.flatMap fun c => if valid c then [' ', c, ' '] else [c]) = ink s := by
  induction s with
  | nil => rfl
  | cons c s ih =>
    rw [List.flatMap_cons, ink_append, ih, ← List.singleton_append (x := c) (l := s), ink_append]
    congr 1
    split
    · rw [show [' ', c, ' '] = [' '] ++ [c] ++ [' '] from rfl, ink_append, ink_append, ink_spaces (x := [' ']) (by simp; decide)]
      simp
    · rfl

theorem ink_lower (s : Str) : ink (s.map asciiLower) = (ink s).map asciiLower := by
  induction s with
  | nil => rfl
  | cons c s ih =>
    unfold ink at ih ⊢
    rw [List.map_cons, List.filter_cons, List.filter_cons, lower_space, ih]
    split <;> rfl

/-- One step: what happens to the text and to the labels. -/
theorem spacing_step (env : Env) (hp : ∀ c, env.u.isCatP c = true → isSpace c = false) (name : String)
    (hn : name ∈ spacingNames) (op : Op) (h : Made env name op) (s : Str) :
    ∃ t a, op.transform (.str s) = .ok (.str t, a) ∧ Carry a s t ∧
      (ink t = ink s ∨ Made env "Lowercase" op ∧ ink t = (ink s).map asciiLower) := by
  have h' := h
  simp only [spacingNames, List.mem_cons, List.not_mem_nil, or_false] at hn
  rcases hn with rfl | rfl | rfl | rfl | rfl | rfl
  · rw [made_simple rfl h]
    obtain ⟨a, h1, h2⟩ := around_carry env.σ isCJK isCJK_not_space s
    exact ⟨_, a, strOp_transform h1, h2, Or.inl (ink_around _ _)⟩
  · rw [made_simple rfl h]
    obtain ⟨a, h1, h2⟩ := around_carry env.σ (isPunctuation env.u) (isPunctuation_solid hp) s
    exact ⟨_, a, strOp_transform h1, h2, Or.inl (ink_around _ _)⟩
  · obtain ⟨hc, vals, h⟩ := made_any (c := Builtin.aroundWord env) rfl h
    have hi : op.cls.inputType = .str := by rw [hc]; rfl
    have ho : op.cls.outputType = .str := by rw [hc]; rfl
    unfold Builtin.aroundWord at h
    dsimp only at h
    unfold Builtin.aroundWordInit at h
    split at h
    · obtain ⟨tr, ht, h⟩ := bind_eq_ok h
      obtain ⟨ws, hw⟩ := userWords_ok ht
      injection h with h
      rename_i words shortest _
      obtain ⟨a, t', h1, h2, h3⟩ := words_carry env.σ ws tr hw shortest.truthy s
      refine ⟨t', a, ?_, h2, Or.inl h3⟩
      unfold Op.transform
      rw [if_neg (by simp [hi, Seq.type]), ← h]
      have : strOp (AddWhitespaceAroundWordnZhChar.transform env.σ tr shortest.truthy) (.str s) = .ok (.str t', a) := by
        show (_ >>= _) = _
        rw [h1]
        rfl
      rw [this, Except.bind_ok]
      dsimp only
      rw [if_neg (by simp [ho, Seq.type])]
      rfl
    · cases h
  · rw [made_simple rfl h]
    obtain ⟨a, h1, h2⟩ := merge_carry env.σ s
    refine ⟨_, a, strOp_transform h1, h2, Or.inl ?_⟩
    obtain ⟨b, _, hr⟩ := runs_isRuns isSpace s
    rw [merge_eq_mergedRuns, ink_filter_runs b _ hr, runs_flatten]
  · rw [made_simple rfl h]
    obtain ⟨a, h1, h2⟩ := strip_carry env.σ s
    refine ⟨_, a, strOp_transform h1, h2, Or.inl ?_⟩
    obtain ⟨⟨x, y, e, hx, hy⟩, _⟩ := (C22_strip_form s (strip s)).mp rfl
    conv => rhs; rw [e]
    rw [ink_append, ink_append, ink_spaces hx, ink_spaces hy]
    simp
  · have e := made_simple (env := env) (name := "Lowercase") rfl h
    obtain ⟨a, h1, h2⟩ := lower_carry env.σ s
    refine ⟨_, a, ?_, h2, Or.inr ⟨h', ink_lower s⟩⟩
    rw [e]
    exact strOp_transform h1

/-! ### labels in terms of the specification -/

theorem inkLabels_eq (s : Str) (ls : List Int) : inkLabels s ls = solidOf s ls := by
  unfold inkLabels
  induction s generalizing ls with
  | nil => rfl
  | cons c s ih =>
    cases ls with
    | nil => rfl
    | cons l ls =>
      rw [List.zip_cons_cons, List.filter_cons]
      unfold solidOf
      by_cases h : isSpace c = true
      · rw [if_neg (by simp [h]), if_pos h, ih]
      · rw [if_pos (by simpa using h), if_neg h, List.map_cons, ih]

theorem onInk_iff (s : Str) (ls zs : List Int) :
    OnInk s ls zs ↔ zs.length = solidCount s ∧ ls = spreadOver s zs := by
  induction s generalizing ls zs with
  | nil =>
    constructor
    · rintro ⟨h1, _, h3⟩
      have : ls = [] := List.eq_nil_of_length_eq_zero h1
      subst this
      exact ⟨by rw [← h3]; rfl, rfl⟩
    · rintro ⟨h1, rfl⟩
      have : zs = [] := List.eq_nil_of_length_eq_zero h1
      subst this
      exact ⟨rfl, by simp, rfl⟩
  | cons c s ih =>
    by_cases hc : isSpace c = true
    · have hcount : solidCount (c :: s) = solidCount s := by simp [solidCount, hc]
      have hspread : spreadOver (c :: s) zs = 0 :: spreadOver s zs := by
        conv => lhs; unfold spreadOver
        rw [if_pos hc]
      rw [hcount, hspread]
      constructor
      · rintro ⟨h1, h2, h3⟩
        cases ls with
        | nil => cases h1
        | cons l ls =>
          have hl : l = 0 := h2 (c, l) (by simp) hc
          rw [inkLabels_eq] at h3
          unfold solidOf at h3
          rw [if_pos hc] at h3
          obtain ⟨g1, g2⟩ := (ih ls zs).mp ⟨by simpa using h1, fun p hp => h2 p (by
            rw [List.zip_cons_cons]; exact List.mem_cons_of_mem _ hp), by rw [inkLabels_eq]; exact h3⟩
          exact ⟨g1, by rw [hl, g2]⟩
      · rintro ⟨h1, rfl⟩
        obtain ⟨g1, g2, g3⟩ := (ih _ zs).mpr ⟨h1, rfl⟩
        refine ⟨by simpa using g1, fun p hp hs => ?_, ?_⟩
        · rw [List.zip_cons_cons] at hp
          rcases List.mem_cons.mp hp with rfl | hp
          · rfl
          · exact g2 p hp hs
        · rw [inkLabels_eq] at g3 ⊢
          unfold solidOf
          rw [if_pos hc]
          exact g3
    · have hcount : solidCount (c :: s) = solidCount s + 1 := by simp [solidCount, hc]
      have hspread : spreadOver (c :: s) zs = zs.headD 0 :: spreadOver s zs.tail := by
        conv => lhs; unfold spreadOver
        rw [if_neg hc]
      rw [hcount, hspread]
      constructor
      · rintro ⟨h1, h2, h3⟩
        cases ls with
        | nil => cases h1
        | cons l ls =>
          rw [inkLabels_eq] at h3
          unfold solidOf at h3
          rw [if_neg hc] at h3
          subst h3
          obtain ⟨g1, g2⟩ := (ih ls (solidOf s ls)).mp ⟨by simpa using h1, fun p hp => h2 p (by
            rw [List.zip_cons_cons]; exact List.mem_cons_of_mem _ hp), by rw [inkLabels_eq]⟩
          exact ⟨by rw [List.length_cons, g1], by rw [List.headD_cons, List.tail_cons, ← g2]⟩
      · rintro ⟨h1, rfl⟩
        cases zs with
        | nil => cases h1
        | cons z zs =>
          obtain ⟨g1, g2, g3⟩ := (ih _ zs).mpr ⟨by simpa using h1, rfl⟩
          rw [List.headD_cons, List.tail_cons]
          refine ⟨by simpa using g1, fun p hp hs => ?_, ?_⟩
          · rw [List.zip_cons_cons] at hp
            rcases List.mem_cons.mp hp with rfl | hp
            · exact absurd hs hc
            · exact g2 p hp hs
          · rw [inkLabels_eq] at g3 ⊢
            unfold solidOf
            rw [if_neg hc, g3]

/-- C109: labels are determined by those of the characters that are not white space, if white space has none. -/
theorem C109_determined (s : Str) (ls ms zs : List Int) (h : OnInk s ls zs) (h' : OnInk s ms zs) : ls = ms := by
  rw [((onInk_iff s ls zs).mp h).2, ((onInk_iff s ms zs).mp h').2]

/-! ### pipes -/

theorem lower_lower (s : Str) : (s.map asciiLower).map asciiLower = s.map asciiLower := by
  rw [List.map_map]
  exact List.map_congr_left fun c _ => lower_idem c

/-- The steps of a pipe, run on a text, with backward labels in terms of `spreadOver`. -/
theorem spacing_runs (env : Env) (hp : ∀ c, env.u.isCatP c = true → isSpace c = false) (steps : List Op)
    (hs : ∀ op ∈ steps, ∃ name ∈ spacingNames, Made env name op) (s : Str) :
    ∃ t rs, Runs steps (.str s) rs ∧ finalOf (.str s) rs = .str t ∧
      (ink t).map asciiLower = (ink s).map asciiLower ∧
      ((∀ op ∈ steps, ¬ Made env "Lowercase" op) → ink t = ink s) ∧ solidCount t = solidCount s ∧
      (∀ ls, ls.length = s.length → ∃ ms, alignAll (rs.map Prod.snd) ls = .ok ms ∧ ms.length = t.length ∧
        solidOf t ms = solidOf s ls) ∧
      (∀ zs, uintLabels zs → zs.length = solidCount s →
        realignAll (rs.map Prod.snd) (spreadOver t zs) = .ok (spreadOver s zs)) ∧
      ((t = s ∧ rs = []) ∨ ∀ ls, ls.length ≠ s.length → alignAll (rs.map Prod.snd) ls = .error .valueError) := by
  induction steps generalizing s with
  | nil => exact ⟨s, [], .nil _, rfl, rfl, fun _ => rfl, rfl, fun ls hl => ⟨ls, rfl, hl, rfl⟩, fun _ _ _ => rfl, Or.inl ⟨rfl, rfl⟩⟩
  | cons op steps ih =>
    obtain ⟨name, hn, hm⟩ := hs op (by simp)
    obtain ⟨u, a, h1, h2, h3⟩ := spacing_step env hp name hn op hm s
    obtain ⟨t, rs, r1, r2, r3, r4, r5, r6, r7, _⟩ := ih (fun o ho => hs o (by simp [ho])) u
    refine ⟨t, (.str u, a) :: rs, .cons h1 r1, by rw [finalOf_cons]; exact r2, ?_, ?_, r5.trans h2.count, ?_, ?_, Or.inr ?_⟩
    · rcases h3 with h3 | ⟨_, h3⟩
      · rw [r3, h3]
      · rw [r3, h3, lower_lower]
    · intro hno
      rcases h3 with h3 | ⟨hl, _⟩
      · rw [r4 fun o ho => hno o (by simp [ho]), h3]
      · exact absurd hl (hno op (by simp))
    · intro ls hl
      obtain ⟨ms, m1, m2, m3⟩ := h2.forward ls hl
      obtain ⟨ks, k1, k2, k3⟩ := r6 ms m2
      refine ⟨ks, ?_, k2, k3.trans m3⟩
      rw [List.map_cons]
      unfold alignAll
      rw [m1]
      exact k1
    · intro zs hu hz
      rw [List.map_cons, realignAll_cons, r7 zs hu (by rw [h2.count]; exact hz), Except.bind_ok, h2.backward zs hu hz]
    · intro ls hl
      rw [List.map_cons]
      unfold alignAll
      rw [C15_transform_wrong_length a ls (by rw [h2.input]; exact hl)]
      rfl

/-- C109: steps that deal with white space only, in any number and order (and `Lowercase`), never fail on a text; the
characters that are not white space stay the same (up to case, if `Lowercase` is among the steps) in the same order,
each with its label; labels given to the result come back to the same characters if white space has none. -/
theorem C109_spacing (env : Env) (hp : ∀ c, env.u.isCatP c = true → isSpace c = false) (steps : List Op)
    (cks : List (Str × Int)) (hs : ∀ op ∈ steps, ∃ name ∈ spacingNames, Made env name op) (s : Str) :
    ∃ t as coll, (⟨steps, cks⟩ : Pipe).transformSequence (.str s) = .ok (.str t, as, coll) ∧
      (ink t).map asciiLower = (ink s).map asciiLower ∧
      ((∀ op ∈ steps, ¬ Made env "Lowercase" op) → ink t = ink s) ∧
      (∀ ls, ls.length = s.length → ∃ ms, alignAll as ls = .ok ms ∧ ms.length = t.length ∧
        inkLabels t ms = inkLabels s ls) ∧
      ∀ ys zs, OnInk t ys zs → uintLabels zs → ∃ ls, realignAll as ys = .ok ls ∧ OnInk s ls zs := by
  obtain ⟨t, rs, r1, r2, r3, r4, r5, r6, r7, _⟩ := spacing_runs env hp steps hs s
  refine ⟨t, rs.map Prod.snd, _, (C58_composition _ _ _ _ _).mpr ⟨rs, r1, r2.symm, rfl, rfl⟩, r3, r4, ?_, ?_⟩
  · intro ls hl
    obtain ⟨ms, m1, m2, m3⟩ := r6 ls hl
    exact ⟨ms, m1, m2, by rw [inkLabels_eq, inkLabels_eq, m3]⟩
  · intro ys zs hy hu
    obtain ⟨h1, rfl⟩ := (onInk_iff t ys zs).mp hy
    exact ⟨_, r7 zs hu (by rw [← r5]; exact h1), (onInk_iff s _ zs).mpr ⟨by rw [← r5]; exact h1, rfl⟩⟩

theorem eachChar_eq (ps : List (Str × Str)) (ys : List Int) :
    eachChar (ps.map Prod.snd) ys = repeated (ps.map fun p => p.2.length) ys := by
  unfold eachChar repeated
  induction ps generalizing ys with
  | nil => rfl
  | cons p ps ih =>
    cases ys with
    | nil => rfl
    | cons y ys =>
      simp only [List.map_cons, List.zip_cons_cons, List.flatMap_cons]
      rw [ih]

/-- C109: with a tokenizer behind them the tokens are the characters that are not white space, cut somewhere; the label
of a token is that of the most labels of its characters in the input, and a label predicted for a token comes back to
exactly its characters. Lists of labels of another length raise ValueError, labels of tokens that are not in
[0, 2^32) OverflowError. -/
theorem C109_tokens (env : Env) (hp : ∀ c, env.u.isCatP c = true → isSpace c = false) (steps : List Op) (tok : Op)
    (cks : List (Str × Int)) (hs : ∀ op ∈ steps, ∃ name ∈ spacingNames, Made env name op)
    (ht : ∃ name ∈ cuttingNames, Made env name tok) (s : Str) :
    ∃ words as coll, (⟨steps ++ [tok], cks⟩ : Pipe).transformSequence (.str s) =
        .ok (.list (words.map Tok.str), as, coll) ∧
      words.flatten.map asciiLower = (ink s).map asciiLower ∧
      ((∀ op ∈ steps, ¬ Made env "Lowercase" op) → words.flatten = ink s) ∧ (∀ w ∈ words, w ≠ []) ∧
      (∀ ls, ls.length = s.length →
        alignAll as ls = .ok ((segments (words.map List.length) (inkLabels s ls)).map tokenLabel)) ∧
      (∀ ys, ys.length = words.length → uintLabels ys →
        ∃ ls, realignAll as ys = .ok ls ∧ OnInk s ls (eachChar words ys)) ∧
      (∀ ls, ls.length ≠ s.length → alignAll as ls = .error .valueError) ∧
      (∀ ys, ys.length ≠ words.length → realignAll as ys = .error .valueError) ∧
      ∀ ys, ys.length = words.length → ¬ uintLabels ys → realignAll as ys = .error .overflowError := by
  obtain ⟨t, rs, r1, r2, r3, r4, r5, r6, r7, r8⟩ := spacing_runs env hp steps hs s
  obtain ⟨name, hn, hm⟩ := ht
  simp only [cuttingNames, List.mem_cons, List.not_mem_nil, or_false] at hn
  obtain ⟨own, T, n, hT, rfl⟩ := made_tokenizer hn hm
  obtain ⟨c, ps, tail, c1, c2, c3⟩ := hT t
  have run : Runs [(⟨Builtin.simple n .str .list (tokOp T), [], tokOp T⟩ : Op)] (finalOf (.str s) rs)
      [(.list ((ps.map Prod.snd).map Tok.str), c)] := by
    rw [r2]
    exact .cons (tokOp_transform c1) (.nil _)
  have hjoin := C39_C40_join own t ps tail c2
  have hink : (ps.map Prod.snd).flatten = ink t := hjoin
  refine ⟨ps.map Prod.snd, rs.map Prod.snd ++ [c], _,
    (C58_composition _ _ _ _ _).mpr ⟨_, Runs.append r1 run, (finalOf_append_cons _ _ _ _).symm, by simp, rfl⟩,
    by rw [hink, r3], fun hno => by rw [hink, r4 hno], ?_, ?_, ?_, ?_, ?_, ?_⟩
  · intro w hw
    obtain ⟨p, hp1, rfl⟩ := List.mem_map.mp hw
    exact c2.nonempty p hp1
  · intro ls hl
    obtain ⟨ms, m1, m2, m3⟩ := r6 ls hl
    rw [alignAll_snoc, m1, Except.bind_ok]
    unfold alignAll
    rw [c3.forward ms (by rw [← c2.text]; exact m2), Except.bind_ok,
      tokenSegs_solid ps tail c2.gaps c2.solid ms (by rw [← c2.text]; exact m2), ← c2.text, m3, inkLabels_eq, List.map_map]
    rfl
  · intro ys hy hu
    rw [List.length_map] at hy
    rw [realignAll_snoc, realignAll_cons]
    rw [show realignAll [] ys = .ok ys from rfl, Except.bind_ok, c3.backward ys hy hu, Except.bind_ok,
      charLabels_spread ps tail c2.gaps c2.solid c2.last ys hy, ← c2.text, eachChar_eq]
    have hlen := repeated_length ps tail c2.gaps c2.solid c2.last ys hy
    rw [← c2.text, r5] at hlen
    exact ⟨_, r7 _ (repeated_uint hu) hlen, (onInk_iff s _ _).mpr ⟨hlen, rfl⟩⟩
  · intro ls hl
    rw [alignAll_snoc]
    rcases r8 with ⟨rfl, rfl⟩ | r8
    · show c.transform ls >>= _ = _
      rw [C15_transform_wrong_length c ls (by rw [c3.aligned.input, ← c2.text]; exact hl)]
      rfl
    · rw [r8 ls hl]
      rfl
  · intro ys hy
    rw [List.length_map] at hy
    rw [realignAll_snoc, realignAll_cons, show realignAll [] ys = .ok ys from rfl, Except.bind_ok, C15_inverse_wrong_length c ys (by rw [c3.aligned.output]; exact hy)]
    rfl
  · intro ys hy hu
    rw [List.length_map] at hy
    rw [realignAll_snoc, realignAll_cons, show realignAll [] ys = .ok ys from rfl, Except.bind_ok, c3.overflow ys hy hu]
    rfl

/-- C109: two such pipes that return the same tokens (or tokens that differ in case only) do the same with all labels, in
both directions. -/
theorem C109_same_tokens (env : Env) (hp : ∀ c, env.u.isCatP c = true → isSpace c = false) (steps steps' : List Op)
    (tok tok' : Op) (cks cks' : List (Str × Int)) (hs : ∀ op ∈ steps, ∃ name ∈ spacingNames, Made env name op)
    (hs' : ∀ op ∈ steps', ∃ name ∈ spacingNames, Made env name op) (ht : ∃ name ∈ cuttingNames, Made env name tok)
    (ht' : ∃ name ∈ cuttingNames, Made env name tok') (s : Str) (words words' : List Str) (as as' : List Aligner)
    (coll coll' : List Seq)
    (h : (⟨steps ++ [tok], cks⟩ : Pipe).transformSequence (.str s) = .ok (.list (words.map Tok.str), as, coll))
    (h' : (⟨steps' ++ [tok'], cks'⟩ : Pipe).transformSequence (.str s) = .ok (.list (words'.map Tok.str), as', coll'))
    (hw : words.map (fun w => w.map asciiLower) = words'.map fun w => w.map asciiLower) :
    (∀ ls, alignAll as ls = alignAll as' ls) ∧ ∀ ys, realignAll as ys = realignAll as' ys := by
  have key : ∀ {ws vs : List Str} {xs : List Aligner} {cs : List Seq} {xs' : List Aligner} {cs' : List Seq},
      (.ok (.list (ws.map Tok.str), xs, cs) : Res (Seq × List Aligner × List Seq)) = .ok (.list (vs.map Tok.str), xs', cs') →
      ws = vs ∧ xs = xs' := by
    intro ws vs xs cs xs' cs' e
    injection e with e
    injection e with e1 e2
    injection e1 with e1
    injection e2 with e2 _
    exact ⟨List.map_injective_iff.mpr (fun _ _ h => by injection h) e1, e2⟩
  obtain ⟨ws, xs, cs, g1, _, _, _, g5, g6, g7, g8, g9⟩ := C109_tokens env hp steps tok cks hs ht s
  obtain ⟨vs, xs', cs', k1, _, _, _, k5, k6, k7, k8, k9⟩ := C109_tokens env hp steps' tok' cks' hs' ht' s
  obtain ⟨rfl, rfl⟩ := key (h.symm.trans g1)
  obtain ⟨rfl, rfl⟩ := key (h'.symm.trans k1)
  have hlen : words.map List.length = words'.map List.length := by
    have := congrArg (List.map List.length) hw
    simpa [List.map_map, Function.comp_def] using this
  have hcount : words.length = words'.length := by simpa using congrArg List.length hlen
  refine ⟨fun ls => ?_, fun ys => ?_⟩
  · by_cases hl : ls.length = s.length
    · rw [g5 ls hl, k5 ls hl, hlen]
    · rw [g7 ls hl, k7 ls hl]
  by_cases hy : ys.length = words.length
  swap
  · rw [g8 ys hy, k8 ys (by omega)]
  by_cases hu : uintLabels ys
  swap
  · rw [g9 ys hy hu, k9 ys (by omega) hu]
  obtain ⟨ls, l1, l2⟩ := g6 ys hy hu
  obtain ⟨ms, m1, m2⟩ := k6 ys (by omega) hu
  have he : ∀ (ws : List Str) (ys : List Int), eachChar ws ys = repeated (ws.map List.length) ys := by
    intro ws ys
    have := eachChar_eq (ws.map fun w => (([] : Str), w)) ys
    simpa [List.map_map, Function.comp_def] using this
  rw [he, hlen, ← he] at l2
  rw [l1, m1, C109_determined s ls ms _ l2 m2]

/-! ### examples -/

/-- C109: labels predicted for white space the steps have put in do reach the characters: "white space has none" cannot be
dropped. -/
theorem C109_needed : ∃ op a, Made exEnv "AddWhitespaceAroundPunctuation" op ∧
    op.transform (.str "a,".toList) = .ok (.str "a , ".toList, a) ∧
    realignAll [a] [1, 7, 5, 7] = .ok [1, 7] ∧ inkLabels "a , ".toList [1, 7, 5, 7] = [1, 5] ∧
    inkLabels "a,".toList [1, 7] = [1, 7] :=
  ⟨_, _, ⟨[], [], rfl⟩, rfl, rfl, rfl, rfl⟩

/-- `Lowercase()`. -/
def exLower : Op := ⟨Builtin.lowercase exEnv, [], strOp (Lowercase.transform exEnv.σ)⟩

/-- `MergeWhiteSpaceCharacters()`. -/
def exMerge : Op := ⟨Builtin.mergeWs exEnv, [], strOp (MergeWhiteSpaceCharacters.transform exEnv.σ)⟩

/-- `AddWhitespaceAroundPunctuation()`. -/
def exSpaced : Op := ⟨Builtin.aroundPunctuation exEnv, [], strOp (AddWhitespaceAroundPunctuation.transform exEnv.σ exEnv.u)⟩

/-- `WhiteSpaceTokenizer()`. -/
def exWordsOp : Op := ⟨Builtin.wsTok exEnv, [], tokOp (WhiteSpaceTokenizer.transform exEnv.σ)⟩

/-- The hypotheses of `C109_tokens` hold of a pipe of three steps and a tokenizer. -/
example : (∀ c, exEnv.u.isCatP c = true → isSpace c = false) ∧
    (∀ op ∈ [exSpaced, exMerge, exLower], ∃ name ∈ spacingNames, Made exEnv name op) ∧
    (∃ name ∈ cuttingNames, Made exEnv name exWordsOp) ∧
    ((⟨[exSpaced, exMerge, exLower] ++ [exWordsOp], []⟩ : Pipe).transformSequence (.str "Hi,\t You".toList)).map Prod.fst =
      .ok (.list [.str "hi".toList, .str ",".toList, .str "you".toList]) := by
  refine ⟨fun c h => (by have h : asciiUnicode.isCatP c = true := h; cases h), fun op ho => ?_,
    ⟨"WhiteSpaceTokenizer", by decide, [], [], rfl⟩, rfl⟩
  rcases List.mem_cons.mp ho with rfl | ho
  · exact ⟨"AddWhitespaceAroundPunctuation", by decide, [], [], rfl⟩
  rcases List.mem_cons.mp ho with rfl | ho
  · exact ⟨"MergeWhiteSpaceCharacters", by decide, [], [], rfl⟩
  rw [List.mem_singleton.mp ho]
  exact ⟨"Lowercase", by decide, [], [], rfl⟩

/-- Its labels: the first token has two characters labelled 3, the last one letter labelled 4 twice and 5 once. -/
example : ink "Hi,\t You".toList = "Hi,You".toList ∧
    inkLabels "Hi,\t You".toList [3, 3, 0, 9, 9, 4, 5, 4] = [3, 3, 0, 4, 5, 4] ∧
    (segments [2, 1, 3] [3, 3, 0, 4, 5, 4]).map tokenLabel = [3, 0, 4] ∧
    eachChar ["hi".toList, ",".toList, "you".toList] [3, 0, 4] = [3, 3, 0, 4, 4, 4] ∧
    OnInk "Hi,\t You".toList [3, 3, 0, 0, 0, 4, 4, 4] [3, 3, 0, 4, 4, 4] :=
  ⟨by decide, by decide, by decide, by decide, ⟨by decide, by decide, by decide⟩⟩

end Uttut
