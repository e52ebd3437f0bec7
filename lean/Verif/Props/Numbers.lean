import Verif.Lemmas.Pattern
import Verif.Props.Elementwise

/-! Properties C18-C20: the number recognisers. -/

namespace Uttut

open Spec Piece

theorem isDigit_eq (u : Unicode) (c : Char) : isDigit u c = digit u c := by
  unfold isDigit digit
  congr 1
  rw [Bool.eq_iff_iff]
  have hl : "０１２３４５６７８９".toList = (List.range 10).map fun i => Char.ofNat (0xFF10 + i) := by decide
  rw [hl]
  simp only [Bool.and_eq_true, decide_eq_true_eq, List.contains_iff_mem, List.mem_map, List.mem_range]
  constructor
  · intro h
    refine ⟨c.toNat - 0xFF10, by omega, ?_⟩
    rw [show 0xFF10 + (c.toNat - 0xFF10) = c.toNat by omega, Char.ofNat_toNat]
  · rintro ⟨i, hi, rfl⟩
    have : (Char.ofNat (0xFF10 + i)).toNat = 0xFF10 + i := by
      have hv : (0xFF10 + i).isValidChar := Or.inr ⟨by omega, by omega⟩
      rw [Char.ofNat, dif_pos hv]
      rfl
    omega

theorem isDigit_fun (u : Unicode) : isDigit u = digit u := funext (isDigit_eq u)

theorem isDigitOrDot_fun (u : Unicode) : isDigitOrDot u = numeric u := by
  funext c; unfold isDigitOrDot numeric; rw [isDigit_eq]

theorem numeric_of_digit {u : Unicode} {c : Char} (h : digit u c = true) : numeric u c = true := by
  simp [numeric, h]

/-! ### matching lengths -/

theorem notBehind_seq (p : Char → Bool) (r : Re) (bef aft : Str) (h : ∀ c ∈ bef.head?, p c = false) :
    (Re.seq (.notBehind p) r).ends bef aft = r.ends bef aft := by
  have : (Re.notBehind p).ends bef aft = [0] := by
    cases bef with
    | nil => rfl
    | cons c cs => simp [Re.ends, h c (by simp)]
  rw [Re.ends, this]
  simp

theorem notBehind_seq_none (p : Char → Bool) (r : Re) (bef aft : Str) (c : Char) (hc : c ∈ bef.head?)
    (h : p c = true) : (Re.seq (.notBehind p) r).ends bef aft = [] := by
  cases bef with
  | nil => simp at hc
  | cons d cs =>
    simp at hc
    subst hc
    simp [Re.ends, h]

theorem takeWhile_all {d : Char → Bool} {x : Str} (h : x.all d = true) : x.takeWhile d = x := by
  have := List.takeWhile_append_of_pos (l₁ := x) (l₂ := []) (p := d) (fun c hc => List.all_eq_true.mp h c hc)
  simpa using this

theorem all_of_takeWhile {d : Char → Bool} {x : Str} (h : x.takeWhile d = x) : x.all d = true := by
  rw [← h]; exact List.all_takeWhile

theorem notAhead_ends {p : Char → Bool} (bef rest : Str) (hrest : ∀ c ∈ rest.head?, p c = false) :
    (Re.notAhead p).ends bef rest = [0] := by
  cases rest with
  | nil => rfl
  | cons e es => simp [Re.ends, hrest e (by simp)]

theorem notAhead_ends_none {p : Char → Bool} (bef : Str) (c : Char) (cs : Str) (h : p c = true) :
    (Re.notAhead p).ends bef (c :: cs) = [] := by
  simp [Re.ends, h]

theorem takeWhile_run {d p : Char → Bool} (hdp : ∀ c, d c = true → p c = true) (x rest : Str)
    (hrest : ∀ c ∈ rest.head?, p c = false) : (x ++ rest).takeWhile d = x.takeWhile d := by
  have h0 : rest.takeWhile d = [] := by
    cases rest with
    | nil => rfl
    | cons c cs =>
      rw [List.takeWhile_cons_of_neg]
      intro hd
      have := hrest c (by simp)
      rw [hdp c hd] at this
      cases this
  rw [List.takeWhile_append]
  split
  · rw [h0]
    rename_i h
    have : x.takeWhile d = x := (List.takeWhile_sublist d).eq_of_length h
    simp [this]
  · rfl

theorem head_drop_run {p : Char → Bool} (x rest : Str) (hu : Uniform p true x) (n : Nat) (hn : n < x.length) :
    ∃ c cs, (x ++ rest).drop n = c :: cs ∧ c ∈ x ∧ p c = true := by
  refine ⟨x[n], (x ++ rest).drop (n + 1), ?_, List.getElem_mem _, hu _ (List.getElem_mem _)⟩
  rw [List.drop_eq_getElem_cons (by simp; omega), List.getElem_append_left hn]

/-- `[d]+(?![p])` on the rest `x` of a run. -/
theorem plus_notAhead {d p : Char → Bool} (hdp : ∀ c, d c = true → p c = true) (bef x rest : Str)
    (hu : Uniform p true x) (hrest : ∀ c ∈ rest.head?, p c = false) :
    ((Re.seq (.plus d) (.notAhead p)).ends bef (x ++ rest)).head? =
      if !x.isEmpty && x.all d then some x.length else none := by
  rw [Re.ends, show (Re.plus d).ends bef (x ++ rest) = downFrom (x.takeWhile d).length by
    simp only [Re.ends]; rw [takeWhile_run hdp x rest hrest]]
  by_cases hall : x.all d = true
  · rw [takeWhile_all hall]
    cases hx : x with
    | nil => simp [downFrom]
    | cons c cs =>
      rw [← hx]
      rw [show downFrom x.length = x.length :: downFrom cs.length by rw [hx]; rfl]
      simp only [List.flatMap_cons, List.drop_left]
      rw [notAhead_ends _ rest hrest, hall, hx]
      simp
  · rw [Bool.not_eq_true] at hall
    rw [hall, Bool.and_false, if_neg (by simp), List.head?_eq_none_iff]
    rw [List.flatMap_eq_nil_iff]
    intro n hn
    rw [mem_downFrom] at hn
    have hlt : (x.takeWhile d).length < x.length := by
      refine Nat.lt_of_le_of_ne (List.takeWhile_sublist d).length_le (fun he => ?_)
      have : x.takeWhile d = x := (List.takeWhile_sublist d).eq_of_length he
      rw [all_of_takeWhile this] at hall
      cases hall
    obtain ⟨c, cs, h1, _, h2⟩ := head_drop_run (p := p) x rest hu n (by omega)
    rw [h1, notAhead_ends_none _ _ _ h2]
    rfl

theorem digit_numeric (u : Unicode) : ∀ c, digit u c = true → numeric u c = true := fun _ => numeric_of_digit

theorem runRe_int (u : Unicode) : RunRe (intRegex u) (numeric u) (fun _ x _ => isInteger u x) where
  off bef aft h := by
    unfold intRegex
    rw [isDigit_fun, isDigitOrDot_fun]
    have : (Re.seq (.plus (digit u)) (.notAhead (numeric u))).ends bef aft = [] := by
      have := plus_notAhead (digit_numeric u) bef [] aft (by intro c hc; simp at hc) h
      simpa using this
    cases hb : bef with
    | nil => rw [notBehind_seq _ _ _ _ (by simp), ← hb, this]
    | cons c cs =>
      by_cases hc : numeric u c = true
      · exact notBehind_seq_none _ _ _ _ c (by simp) hc
      · rw [notBehind_seq _ _ _ _ (by simp; simpa using hc), ← hb, this]
  run bef x rest hx hu hbef hrest := by
    unfold intRegex
    rw [isDigit_fun, isDigitOrDot_fun, notBehind_seq _ _ _ _ hbef,
      plus_notAhead (digit_numeric u) bef x rest hu hrest]
    have : x.isEmpty = false := by cases x <;> simp_all
    rw [this]
    rfl
  interior bef x y rest hx hy hu hbef hrest _ := by
    unfold intRegex
    rw [isDigit_fun, isDigitOrDot_fun]
    obtain ⟨c, x', hx'⟩ := List.exists_cons_of_ne_nil (show x.reverse ≠ [] by simpa using hx)
    refine notBehind_seq_none _ _ _ _ c (by rw [hx']; simp) (hu c ?_)
    rw [List.mem_append, ← List.mem_reverse, hx']
    simp

theorem seq_cls_cons (p : Char → Bool) (r : Re) (bef : Str) (c : Char) (cs : Str) :
    (Re.seq (.cls p) r).ends bef (c :: cs) =
      if p c then (r.ends (c :: bef) cs).map (1 + ·) else [] := by
  by_cases h : p c = true <;> simp [Re.ends, h]

/-- `[d]+\.[d]+(?![p])` on a run. -/
theorem plus_dot_plus (u : Unicode) (hdot : u.isDecimal '.' = false) (bef x rest : Str)
    (hu : Uniform (numeric u) true x) (hrest : ∀ c ∈ rest.head?, numeric u c = false) :
    ((Re.seq (.plus (digit u)) (.seq (.cls (· == '.'))
        (.seq (.plus (digit u)) (.notAhead (numeric u))))).ends bef (x ++ rest)).head? =
      if isFloat u x then some x.length else none := by
  have hd : digit u '.' = false := by unfold digit; rw [hdot]; decide
  have hdn := digit_numeric u
  rw [Re.ends]
  rw [show (Re.plus (digit u)).ends bef (x ++ rest) = downFrom (x.takeWhile (digit u)).length by
    simp only [Re.ends]; rw [takeWhile_run hdn x rest hrest]]
  have hsplit : x = x.takeWhile (digit u) ++ x.dropWhile (digit u) := List.takeWhile_append_dropWhile.symm
  generalize ha : x.takeWhile (digit u) = a at hsplit
  generalize ht : x.dropWhile (digit u) = t at hsplit
  have had : ∀ c ∈ a, digit u c = true := by
    intro c hc; rw [← ha] at hc; exact List.all_eq_true.mp List.all_takeWhile c hc
  have hth : ∀ c ∈ t.head?, digit u c = false := by
    intro c hc
    rw [← ht, Option.mem_def] at hc
    have := List.head?_dropWhile_not (digit u) x
    rw [hc] at this
    simpa using this
  have hut : Uniform (numeric u) true t := fun c hc => hu c (by rw [hsplit]; simp [hc])
  -- shorter prefixes are followed by a digit
  have hsmall : ∀ n, n < a.length → (Re.seq (.cls (· == '.'))
      (.seq (.plus (digit u)) (.notAhead (numeric u)))).ends
        (((x ++ rest).take n).reverse ++ bef) ((x ++ rest).drop n) = [] := by
    intro n hn
    have : (x ++ rest).drop n = a[n] :: (a ++ (t ++ rest)).drop (n + 1) := by
      rw [hsplit, List.append_assoc, List.drop_eq_getElem_cons (by simp; omega),
        List.getElem_append_left hn]
    rw [this, seq_cls_cons]
    have hne : ¬ ((a[n] == '.') = true) := by
      intro h
      have h2 := had a[n] (List.getElem_mem _)
      rw [beq_iff_eq.mp h, hd] at h2
      cases h2
    rw [if_neg hne]
  have hflat : ∀ k, k ≤ a.length → ((downFrom k).flatMap fun n =>
      ((Re.seq (.cls (· == '.')) (.seq (.plus (digit u)) (.notAhead (numeric u)))).ends
        (((x ++ rest).take n).reverse ++ bef) ((x ++ rest).drop n)).map fun m => n + m).head? =
      if k = a.length ∧ 0 < k then
        (((Re.seq (.cls (· == '.')) (.seq (.plus (digit u)) (.notAhead (numeric u)))).ends
          (((x ++ rest).take k).reverse ++ bef) ((x ++ rest).drop k)).map fun m => k + m).head? else none := by
    intro k
    induction k with
    | zero => intro _; simp [downFrom]
    | succ k ih =>
      intro hk
      have ih := ih (by omega)
      rw [if_neg (by omega)] at ih
      simp only [downFrom, List.flatMap_cons, List.head?_append, ih, Option.or_none]
      by_cases hke : k + 1 = a.length
      · rw [if_pos ⟨hke, by omega⟩]
      · rw [if_neg (by omega), hsmall (k + 1) (by omega)]
        rfl
  rw [hflat _ (Nat.le_refl _)]
  have hdrop : (x ++ rest).drop a.length = t ++ rest := by
    rw [hsplit, List.append_assoc, List.drop_left]
  rw [hdrop]
  unfold isFloat
  rw [ha, ht]
  by_cases hae : a = []
  · subst hae
    simp only [List.length_nil, Nat.lt_irrefl, and_false, if_false, List.isEmpty_nil, Bool.not_true, Bool.false_and]
    split <;> simp
  · have hal := List.length_pos_iff.mpr hae
    rw [if_pos ⟨rfl, hal⟩]
    have hae' : a.isEmpty = false := by cases a <;> simp_all
    cases t with
    | nil =>
      rw [List.nil_append]
      cases rest with
      | nil => simp [Re.ends]
      | cons c cs =>
        rw [seq_cls_cons]
        have hne : ¬ ((c == '.') = true) := by
          intro h
          have h2 := hrest c (by simp)
          simp [numeric, h] at h2
        rw [if_neg hne]
        rfl
    | cons c t' =>
      rw [List.cons_append, seq_cls_cons]
      by_cases hc : c = '.'
      · subst hc
        simp only [beq_self_eq_true, if_true, hae', Bool.not_false, Bool.true_and]
        rw [List.head?_map, List.head?_map, plus_notAhead hdn _ t' rest (fun c hc => hut c (by simp [hc])) hrest]
        split
        · simp [hsplit]; omega
        · rfl
      · rw [if_neg (by simpa using hc)]
        simp only [List.map_nil, List.head?_nil]
        split
        · rename_i heq; injection heq with h1 _; exact absurd h1 hc
        · rfl

theorem runRe_float (u : Unicode) (hdot : u.isDecimal '.' = false) :
    RunRe (floatRegex u) (numeric u) (fun _ x _ => isFloat u x) where
  off bef aft h := by
    unfold floatRegex
    rw [isDigit_fun, isDigitOrDot_fun]
    have : (Re.seq (.plus (digit u)) (.seq (.cls (· == '.'))
        (.seq (.plus (digit u)) (.notAhead (numeric u))))).ends bef aft = [] := by
      have := plus_dot_plus u hdot bef [] aft (by intro c hc; simp at hc) h
      simpa [isFloat] using this
    cases hb : bef with
    | nil => rw [notBehind_seq _ _ _ _ (by simp), ← hb, this]
    | cons c cs =>
      by_cases hc : numeric u c = true
      · exact notBehind_seq_none _ _ _ _ c (by simp) hc
      · rw [notBehind_seq _ _ _ _ (by simp; simpa using hc), ← hb, this]
  run bef x rest hx hu hbef hrest := by
    unfold floatRegex
    rw [isDigit_fun, isDigitOrDot_fun, notBehind_seq _ _ _ _ hbef, plus_dot_plus u hdot bef x rest hu hrest]
  interior bef x y rest hx hy hu hbef hrest _ := by
    unfold floatRegex
    rw [isDigit_fun, isDigitOrDot_fun]
    obtain ⟨c, x', hx'⟩ := List.exists_cons_of_ne_nil (show x.reverse ≠ [] by simpa using hx)
    refine notBehind_seq_none _ _ _ _ c (by rw [hx']; simp) (hu c ?_)
    rw [List.mem_append, ← List.mem_reverse, hx']
    simp

/-- C18: what `isFloat` means. -/
theorem C18_float_form (u : Unicode) (hdot : u.isDecimal '.' = false) (r : Str) :
    isFloat u r = true ↔ ∃ a b, a ≠ [] ∧ b ≠ [] ∧ a.all (digit u) = true ∧ b.all (digit u) = true ∧
      r = a ++ '.' :: b := by
  have hd : digit u '.' = false := by unfold digit; rw [hdot]; decide
  have hsplit : r = r.takeWhile (digit u) ++ r.dropWhile (digit u) := List.takeWhile_append_dropWhile.symm
  constructor
  · intro h
    unfold isFloat at h
    split at h
    · rename_i t ht
      simp only [Bool.and_eq_true, Bool.not_eq_true', List.isEmpty_eq_false_iff] at h
      exact ⟨_, t, h.1.1, h.1.2, List.all_takeWhile, h.2, by rw [← ht]; exact hsplit⟩
    · cases h
  · rintro ⟨a, b, ha, hb, had, hbd, rfl⟩
    have h1 : (a ++ '.' :: b).takeWhile (digit u) = a := by
      rw [List.takeWhile_append_of_pos (fun c hc => List.all_eq_true.mp had c hc),
        List.takeWhile_cons_of_neg (by simp [hd])]
      simp
    have h2 : (a ++ '.' :: b).dropWhile (digit u) = '.' :: b := by
      rw [List.dropWhile_append_of_pos (fun c hc => List.all_eq_true.mp had c hc),
        List.dropWhile_cons_of_neg (by simp [hd])]
    unfold isFloat
    rw [h1, h2]
    simp [ha, hb, hbd]

/-! ### operators -/

/-- Everything about a pattern operator whose regex matches the runs of `p` satisfying `q`. -/
theorem run_op (σ : SetOrder) (p : Char → Bool) (r : Re) (q : Str → Bool)
    (hr : RunRe r p (fun _ x _ => q x)) (token : Str) (htok : token ≠ [])
    (f b : Transducer) (F B : List Int → Nat → List Int)
    (hf : ∀ x n, x ≠ [] → n = token.length → f x n = .ok (F x n))
    (hb : ∀ x n, x ≠ [] → b x n = .ok (B x n))
    (hFl : ∀ x n, n = token.length → (F x n).length = n) (hBl : ∀ x n, (B x n).length = n) (s : Str) :
    ∃ a, patternTransform σ r.search token f b s =
        .ok (mapRuns p (fun x => if q x then token else x) s, a) ∧
      Aligned a s.length (mapRuns p (fun x => if q x then token else x) s).length anyLabels ∧
      (∀ ls, ls.length = s.length → a.transform ls = .ok (mapLabels (fun x => isRunOf p x && q x)
        (fun _ seg => F seg token.length) (runs p s) (splitLike (runs p s) ls))) ∧
      (∀ ls, ls.length = (mapRuns p (fun x => if q x then token else x) s).length →
        a.inverseTransform ls = .ok (mapLabels (fun x => isRunOf p x && q x)
          (fun x seg => B seg x.length) (runs p s)
          (splitLike ((runs p s).map
            fun x => if isRunOf p x && q x then token else x) ls))) ∧
      (∀ ls, ls.length = s.length →
        (∀ x ∈ (runs p s).zip (splitLike (runs p s) ls),
          isRunOf p x.1 = true → q x.1 = true → B (F x.2 token.length) x.1.length = x.2) →
        ∃ y, a.transform ls = .ok y ∧ a.inverseTransform y = .ok ls) := by
  obtain ⟨h1, hsrc⟩ := patternTransform_runs σ r p _ hr token f b s
  have hdst := dstOf_runPieces p q (fun _ => token) [] (runs p s)
  have hmem : ∀ o n, sub o n ∈ runPieces p (fun _ r _ => q r) (fun _ => token) [] (runs p s) →
      o ≠ [] ∧ n = token := by
    intro o n hm
    obtain ⟨h, _, _, h'⟩ := mem_runPieces' hm
    exact ⟨(mem_runs _ _ _ h).1, h'⟩
  have hne : ∀ (o x : List Int) (o' : Str), o' ≠ [] → x.length = o'.length → x ≠ [] := by
    rintro _ x o' h1 h2 rfl
    exact h1 (List.length_eq_zero_iff.mp h2.symm)
  have hfG : ∀ o n, sub o n ∈ runPieces p (fun _ r _ => q r) (fun _ => token) [] (runs p s) →
      ∀ x, x.length = o.length → f x n.length = .ok (F x n.length) := by
    intro o n hm x hx
    obtain ⟨h, rfl⟩ := hmem o n hm
    exact hf x _ (hne [] x o h hx) rfl
  have hbG : ∀ o n, sub o n ∈ (runPieces p (fun _ r _ => q r) (fun _ => token) [] (runs p s)).map swap →
      ∀ x, x.length = o.length → b x n.length = .ok (B x n.length) := by
    intro o n hm x hx
    obtain ⟨pc, hpc, he⟩ := List.mem_map.mp hm
    cases pc with
    | keep l => cases he
    | sub o' n' =>
      injection he with e1 e2
      subst e1; subst e2
      obtain ⟨_, h⟩ := hmem _ _ hpc
      exact hb x _ (hne [] x _ (by rw [h]; exact htok) hx)
  obtain ⟨hA, hT, hI, _⟩ := strAligner_pack σ _ f b s _ hsrc hdst
    (fun o n hm x hx => ⟨_, hfG o n hm x hx, by rw [(hmem o n hm).2]; exact hFl _ _ rfl⟩)
    (fun o n hm x hx => ⟨_, hbG o n hm x hx, hBl _ _⟩)
    (separated_swap_of_nonempty _ (fun o n hm => by rw [(hmem o n hm).2]; exact htok) _)
  rw [hdst] at h1
  have hfw : ∀ ls, ls.length = s.length → relabel f (withLabels (runPieces p (fun _ r _ => q r)
      (fun _ => token) [] (runs p s)) ls) = .ok (mapLabels (fun x => isRunOf p x && q x)
        (fun _ seg => F seg token.length) (runs p s) (splitLike (runs p s) ls)) := by
    intro ls hl
    rw [relabel_labelsWith f F _ hfG ls (by rw [hsrc]; exact hl), labelsWith_runPieces]
    simp [mapLabels]
  have hbw : ∀ ls, ls.length = (mapRuns p (fun x => if q x then token else x) s).length →
      relabel b (withLabels ((runPieces p (fun _ r _ => q r)
      (fun _ => token) [] (runs p s)).map swap) ls) =
        .ok (mapLabels (fun x => isRunOf p x && q x)
          (fun x seg => B seg x.length) (runs p s)
          (splitLike ((runs p s).map
            fun x => if isRunOf p x && q x then token else x) ls)) := by
    intro ls hl
    rw [relabel_labelsWith b B _ hbG ls (by rw [srcOf_swap, hdst]; exact hl),
      labelsWith_runPieces_swap]
    simp [mapLabels]
  refine ⟨_, h1, hA, fun ls hl => hT ls _ hl (hfw ls hl), fun ls hl => hI ls _ hl (hbw ls hl), ?_⟩
  intro ls hl hun
  obtain ⟨y, hy, hylen⟩ := hA.forward ls hl
  refine ⟨y, hy, ?_⟩
  have hy' := hT ls _ hl (hfw ls hl)
  rw [hy] at hy'
  injection hy' with hy'
  rw [hI y _ hylen (hbw y hylen)]
  congr 1
  have hls : ls.length = (runs p s).flatten.length := by rw [runs_flatten]; exact hl
  rw [hy']
  -- run by run
  clear hy' hy hylen h1 hA hT hI hfw hbw hdst hsrc hmem hfG hbG hl
  generalize runs p s = rs at hun hls
  induction rs generalizing ls with
  | nil =>
    have : ls = [] := by simpa using hls
    subst this; rfl
  | cons x rs ih =>
    simp only [List.flatten_cons, List.length_append] at hls
    have hlen : (ls.take x.length).length = x.length := by rw [List.length_take]; omega
    have ih := ih (ls.drop x.length) (fun z hz => hun z (by simp [splitLike, hz]))
      (by rw [List.length_drop]; omega)
    have hx := hun (x, ls.take x.length) (by simp [splitLike])
    simp only [mapLabels, splitLike, List.zip_cons_cons, List.flatMap_cons, List.map_cons] at ih ⊢
    by_cases hq : (isRunOf p x && q x) = true
    · have hq' := hq
      simp only [Bool.and_eq_true] at hq'
      simp only [hq, if_true]
      have e1 := hFl (ls.take x.length) token.length rfl
      rw [List.take_append_of_le_length (by omega), List.take_of_length_le (by omega),
        List.drop_append_of_le_length (by omega), List.drop_of_length_le (by omega), List.nil_append, ih,
        hx hq'.1 hq'.2, List.take_append_drop]
    · simp only [hq, Bool.false_eq_true, if_false]
      rw [List.take_append_of_le_length (by omega), List.take_of_length_le (by omega),
        List.drop_append_of_le_length (by omega), List.drop_of_length_le (by omega), List.nil_append, ih,
        List.take_append_drop]

/-- The transducers of the recognisers without surrounding spaces. -/
def plainLabels (x : List Int) (n : Nat) : List Int := List.replicate n (firstMode x)

/-- The forward transducer of the recognisers with surrounding spaces. -/
def spacedLabels (x : List Int) (n : Nat) : List Int := 0 :: List.replicate (n - 2) (firstMode x) ++ [0]

/-- The backward transducer. -/
def backLabels (x : List Int) (n : Nat) : List Int := List.replicate n (firstNonzeroMode x)

theorem withSpaceFwd_eq (token : Str) (x : List Int) (n : Nat) (hx : x ≠ []) (hn : n = token.length) :
    withSpaceFwd token x n = .ok (spacedLabels x n) := by
  obtain ⟨k, m, rest, h1, h2⟩ := mostCommonItems_firstMode x hx
  unfold withSpaceFwd spacedLabels
  rw [h1]
  dsimp only
  rw [isFirstMode_unique h2 (isFirstMode_firstMode x hx), hn]
  rfl

theorem firstMode_replicate (n : Nat) (v : Int) : firstMode (List.replicate (n + 1) v) = v := by
  have h := (isFirstMode_firstMode (List.replicate (n + 1) v) (by simp)).1
  exact (List.mem_replicate.mp h).2

theorem firstNonzeroMode_replicate (n : Nat) (v : Int) (h : 0 < n ∨ v = 0) :
    firstNonzeroMode (List.replicate n v) = v := by
  unfold firstNonzeroMode
  by_cases hv : v = 0
  · subst hv
    rw [List.filter_eq_nil_iff.mpr (by intro a ha; simp [(List.mem_replicate.mp ha).2])]
    rfl
  · obtain ⟨k, rfl⟩ : ∃ k, n = k + 1 := ⟨n - 1, by have := h.resolve_right hv; omega⟩
    rw [List.filter_eq_self.mpr (by intro a ha; simp [(List.mem_replicate.mp ha).2, hv])]
    exact firstMode_replicate k v

theorem back_plain (v : Int) (n k : Nat) (hn : 0 < n) :
    backLabels (plainLabels (List.replicate n v) (k + 1)) n = List.replicate n v := by
  unfold backLabels plainLabels
  obtain ⟨m, rfl⟩ : ∃ m, n = m + 1 := ⟨n - 1, by omega⟩
  rw [firstMode_replicate, firstNonzeroMode_replicate _ _ (Or.inl (by omega))]

theorem back_spaced (v : Int) (n k : Nat) (hn : 0 < n) :
    backLabels (spacedLabels (List.replicate n v) (k + 3)) n = List.replicate n v := by
  unfold backLabels spacedLabels
  obtain ⟨m, rfl⟩ : ∃ m, n = m + 1 := ⟨n - 1, by omega⟩
  rw [firstMode_replicate]
  have : firstNonzeroMode (0 :: List.replicate (k + 3 - 2) v ++ [0]) = firstNonzeroMode (List.replicate (k + 1) v) := by
    unfold firstNonzeroMode
    congr 1
    simp
  rw [this, firstNonzeroMode_replicate _ _ (Or.inl (by omega))]

theorem splitLike_mem_length (rs : List Str) (ls : List Int) (h : ls.length = rs.flatten.length) :
    ∀ x ∈ rs.zip (splitLike rs ls), x.2.length = x.1.length ∧ x.1 ∈ rs := by
  induction rs generalizing ls with
  | nil => simp
  | cons r rs ih =>
    simp only [List.flatten_cons, List.length_append] at h
    intro x hx
    simp only [splitLike, List.zip_cons_cons, List.mem_cons] at hx
    rcases hx with rfl | hx
    · exact ⟨by simp; omega, by simp⟩
    · obtain ⟨h1, h2⟩ := ih (ls.drop r.length) (by rw [List.length_drop]; omega) x hx
      exact ⟨h1, by simp [h2]⟩

/-- C18: `runs p s` is the division of `s` into maximal runs: non-empty, uniform, adjacent runs differ;
and it is the only such division. -/
theorem C18_runs (p : Char → Bool) (s : Str) :
    (runs p s).flatten = s ∧ (∃ b, IsRuns p b (runs p s)) ∧
      ∀ b rs, IsRuns p b rs → rs.flatten = s → rs = runs p s := by
  obtain ⟨b, _, h⟩ := runs_isRuns p s
  refine ⟨runs_flatten p s, ⟨b, h⟩, ?_⟩
  intro b rs h hs
  rw [← hs, isRuns_unique p b rs h]

/-- Rewriting of the numeric runs satisfying `q`: output and labels (the statement of C18 and C19). -/
structure NumberOp (u : Unicode) (q : Str → Bool) (token : Str)
    (F : List Int → List Int) (op : Str → Res (Str × Aligner)) (s : Str) : Prop where
  run : ∃ a, op s = .ok (mapRuns (numeric u) (fun r => if q r then token else r) s, a) ∧
    Aligned a s.length (mapRuns (numeric u) (fun r => if q r then token else r) s).length anyLabels ∧
    -- forward labels
    (∀ ls, ls.length = s.length → a.transform ls =
      .ok (mapLabels (fun r => isRunOf (numeric u) r && q r) (fun _ seg => F seg)
        (runs (numeric u) s) (splitLike (runs (numeric u) s) ls))) ∧
    -- backward labels
    (∀ ls, ls.length = (mapRuns (numeric u) (fun r => if q r then token else r) s).length →
      a.inverseTransform ls =
        .ok (mapLabels (fun r => isRunOf (numeric u) r && q r)
          (fun r seg => List.replicate r.length (firstNonzeroMode seg))
          (runs (numeric u) s)
          (splitLike ((runs (numeric u) s).map
            fun r => if isRunOf (numeric u) r && q r then token else r) ls))) ∧
    -- round trip
    (∀ ls, ls.length = s.length →
      (∀ x ∈ (runs (numeric u) s).zip (splitLike (runs (numeric u) s) ls),
        isRunOf (numeric u) x.1 = true → q x.1 = true → ∃ v, ∀ l ∈ x.2, l = v) →
      ∃ y, a.transform ls = .ok y ∧ a.inverseTransform y = .ok ls)

theorem numberOp_of (σ : SetOrder) (u : Unicode) (r : Re) (q : Str → Bool)
    (hr : RunRe r (numeric u) (fun _ x _ => q x)) (token : Str) (htok : token ≠ [])
    (f : Transducer) (F : List Int → Nat → List Int)
    (hf : ∀ x n, x ≠ [] → n = token.length → f x n = .ok (F x n))
    (hFl : ∀ x n, n = token.length → (F x n).length = n)
    (hback : ∀ v n, 0 < n → backLabels (F (List.replicate n v) token.length) n = List.replicate n v) (s : Str) :
    NumberOp u q token (fun x => F x token.length)
      (patternTransform σ r.search token f Transduce.getMostCommonExceptNotEntity) s := by
  obtain ⟨a, h1, h2, h3, h4, h5⟩ := run_op σ (numeric u) r q hr token htok f
    Transduce.getMostCommonExceptNotEntity F backLabels hf
    (fun x n _ => getMostCommonExcept_mode x n) hFl (fun x n => by simp [backLabels]) s
  refine ⟨⟨a, h1, h2, h3, h4, ?_⟩⟩
  intro ls hl hun
  refine h5 ls hl ?_
  intro x hx hx1 hx2
  obtain ⟨v, hv⟩ := hun x hx hx1 hx2
  obtain ⟨e1, e2⟩ := splitLike_mem_length _ ls (by rw [runs_flatten]; exact hl) x hx
  have hx2' : x.2 = List.replicate x.1.length v := by
    rw [← e1]; exact List.eq_replicate_iff.mpr ⟨rfl, hv⟩
  rw [hx2']
  exact hback v _ (List.length_pos_iff.mpr (mem_runs _ _ _ e2).1)

/-- C18/C19 for `IntToken`: exactly the maximal numeric runs made of digits become `_int_`; their labels
become the most common label of the run. -/
theorem C18_C19_int_token (σ : SetOrder) (u : Unicode) (s : Str) :
    NumberOp u (isInteger u) "_int_".toList (fun x => List.replicate 5 (firstMode x))
      (IntToken.transform σ u) s :=
  numberOp_of σ u _ _ (runRe_int u) intToken (by decide) _ plainLabels
    (fun x n hx _ => getMostCommon_firstMode x n hx) (fun x n _ => by simp [plainLabels])
    (fun v n hn => back_plain v n 4 hn) s

/-- C18/C19 for `IntTokenWithSpace`. -/
theorem C18_C19_int_token_with_space (σ : SetOrder) (u : Unicode) (s : Str) :
    NumberOp u (isInteger u) " _int_ ".toList (fun x => [0] ++ List.replicate 5 (firstMode x) ++ [0])
      (IntTokenWithSpace.transform σ u) s :=
  numberOp_of σ u _ _ (runRe_int u) intTokenWithSpace (by decide) _ spacedLabels
    (fun x n hx hn => withSpaceFwd_eq _ x n hx hn) (fun x n hn => by rw [hn]; simp [spacedLabels]; decide)
    (fun v n hn => back_spaced v n 4 hn) s

/-- C18/C19 for `NumTokenWithSpace`. -/
theorem C18_C19_num_token_with_space (σ : SetOrder) (u : Unicode) (s : Str) :
    NumberOp u (isInteger u) " _num_ ".toList (fun x => [0] ++ List.replicate 5 (firstMode x) ++ [0])
      (NumTokenWithSpace.transform σ u) s :=
  numberOp_of σ u _ _ (runRe_int u) numTokenWithSpace (by decide) _ spacedLabels
    (fun x n hx hn => withSpaceFwd_eq _ x n hx hn) (fun x n hn => by rw [hn]; simp [spacedLabels]; decide)
    (fun v n hn => back_spaced v n 4 hn) s

/-- C18/C19 for `FloatToken`: exactly the maximal numeric runs `digits.digits` become `_float_`. -/
theorem C18_C19_float_token (σ : SetOrder) (u : Unicode) (hdot : u.isDecimal '.' = false) (s : Str) :
    NumberOp u (isFloat u) "_float_".toList (fun x => List.replicate 7 (firstMode x))
      (FloatToken.transform σ u) s :=
  numberOp_of σ u _ _ (runRe_float u hdot) floatToken (by decide) _ plainLabels
    (fun x n hx _ => getMostCommon_firstMode x n hx) (fun x n _ => by simp [plainLabels])
    (fun v n hn => back_plain v n 6 hn) s

/-- C18/C19 for `FloatTokenWithSpace`. -/
theorem C18_C19_float_token_with_space (σ : SetOrder) (u : Unicode) (hdot : u.isDecimal '.' = false) (s : Str) :
    NumberOp u (isFloat u) " _float_ ".toList (fun x => [0] ++ List.replicate 7 (firstMode x) ++ [0])
      (FloatTokenWithSpace.transform σ u) s :=
  numberOp_of σ u _ _ (runRe_float u hdot) floatTokenWithSpace (by decide) _ spacedLabels
    (fun x n hx hn => withSpaceFwd_eq _ x n hx hn) (fun x n hn => by rw [hn]; simp [spacedLabels]; decide)
    (fun v n hn => back_spaced v n 6 hn) s

/-! ### C20 -/

/-- Characters of the replacement tokens are not numeric. -/
theorem token_off (u : Unicode) (h : AsciiDigits u) (token : Str)
    (ht : token.all (fun c => decide (c.toNat < 128) && !("0123456789".toList.contains c) && !(c == '.') &&
      !("０１２３４５６７８９".toList.contains c)) = true) :
    Uniform (numeric u) false token := by
  intro c hc
  have hc := List.all_eq_true.mp ht c hc
  simp only [Bool.and_eq_true, decide_eq_true_eq, Bool.not_eq_true'] at hc
  obtain ⟨⟨⟨h0, h1⟩, h2⟩, h3⟩ := hc
  have h1 : u.isDecimal c = false := by
    rw [← Bool.not_eq_true]
    intro hd
    rw [← Bool.not_eq_true, List.contains_iff_mem] at h1
    exact h1 ((h c h0).mp hd)
  unfold numeric digit
  rw [h1, h2, h3]
  rfl

/-- A run rewriting that replaces the runs satisfying `q` by a token free of numeric characters. -/
theorem mapRuns_token_comp (p : Char → Bool) (q₁ q₂ : Str → Bool) (t₁ t₂ : Str) (h1 : Uniform p false t₁)
    (s : Str) :
    mapRuns p (fun r => if q₂ r then t₂ else r) (mapRuns p (fun r => if q₁ r then t₁ else r) s) =
      mapRuns p (fun r => if q₁ r then t₁ else if q₂ r then t₂ else r) s := by
  rw [mapRuns_comp]
  · apply mapRuns_congr
    intro r hr hu
    by_cases hq : q₁ r = true
    · have hne : t₁ ≠ r := by
        rintro rfl
        obtain ⟨c, r', rfl⟩ := List.exists_cons_of_ne_nil hr
        have e1 := hu c (by simp)
        rw [h1 c (by simp)] at e1
        cases e1
      simp [hq, hne]
    · simp [hq]
  · intro r _ _
    by_cases hq : q₁ r = true
    · right; rw [if_pos hq]; exact h1
    · left; rw [if_neg hq]

theorem mapRuns_token_idem (p : Char → Bool) (q : Str → Bool) (t : Str) (h1 : Uniform p false t) (s : Str) :
    mapRuns p (fun r => if q r then t else r) (mapRuns p (fun r => if q r then t else r) s) =
      mapRuns p (fun r => if q r then t else r) s := by
  rw [mapRuns_token_comp p q q t t h1]
  apply mapRuns_congr
  intro r _ _
  by_cases hq : q r = true <;> simp [hq]

/-- The text produced by an operator. -/
def outputOf (r : Res (Str × Aligner)) : Res Str := r.map Prod.fst

/-- Running `g` on the text produced by `f`. -/
def andThen (f g : Str → Res (Str × Aligner)) (s : Str) : Res Str := do
  let x ← f s
  outputOf (g x.1)

theorem andThen_eq {f g : Str → Res (Str × Aligner)} {F G : Str → Str} (s : Str)
    (hf : ∃ a, f s = .ok (F s, a)) (hg : ∃ a, g (F s) = .ok (G (F s), a)) :
    andThen f g s = .ok (G (F s)) := by
  obtain ⟨a, h1⟩ := hf
  obtain ⟨b, h2⟩ := hg
  unfold andThen outputOf
  rw [h1]
  show Except.map Prod.fst (g (F s)) = _
  rw [h2]
  rfl

theorem NumberOp.out {u : Unicode} {q : Str → Bool} {token : Str} {F : List Int → List Int}
    {op : Str → Res (Str × Aligner)} {s : Str} (h : NumberOp u q token F op s) :
    ∃ a, op s = .ok (mapRuns (numeric u) (fun r => if q r then token else r) s, a) := by
  obtain ⟨a, h, _⟩ := h.run
  exact ⟨a, h⟩

theorem numberOp_idem {u : Unicode} {q : Str → Bool} {token : Str} {F : List Int → List Int}
    {op : Str → Res (Str × Aligner)} (h : ∀ s, NumberOp u q token F op s) (ht : Uniform (numeric u) false token)
    (s : Str) : andThen op op s = outputOf (op s) := by
  rw [andThen_eq s (h s).out (h _).out, mapRuns_token_idem _ _ _ ht]
  obtain ⟨a, ha⟩ := (h s).out
  rw [ha]
  rfl

/-- C20: each number recogniser is idempotent. -/
theorem C20_idempotent (σ : SetOrder) (u : Unicode) (h : AsciiDigits u) (s : Str) :
    (∀ op ∈ [IntToken.transform σ u, IntTokenWithSpace.transform σ u, NumTokenWithSpace.transform σ u,
        FloatToken.transform σ u, FloatTokenWithSpace.transform σ u],
      andThen op op s = outputOf (op s)) := by
  have hdot : u.isDecimal '.' = false := by
    rw [← Bool.not_eq_true, h '.' (by decide)]; decide
  intro op hop
  simp only [List.mem_cons, List.not_mem_nil, or_false] at hop
  rcases hop with rfl | rfl | rfl | rfl | rfl
  · exact numberOp_idem (C18_C19_int_token σ u) (token_off u h _ (by decide)) s
  · exact numberOp_idem (C18_C19_int_token_with_space σ u) (token_off u h _ (by decide)) s
  · exact numberOp_idem (C18_C19_num_token_with_space σ u) (token_off u h _ (by decide)) s
  · exact numberOp_idem (C18_C19_float_token σ u hdot) (token_off u h _ (by decide)) s
  · exact numberOp_idem (C18_C19_float_token_with_space σ u hdot) (token_off u h _ (by decide)) s

theorem not_integer_of_float {u : Unicode} (hdot : u.isDecimal '.' = false) {r : Str} (h : isFloat u r = true) :
    isInteger u r = false := by
  obtain ⟨a, b, _, _, _, _, rfl⟩ := (C18_float_form u hdot r).mp h
  have hd : digit u '.' = false := by unfold digit; rw [hdot]; decide
  unfold isInteger
  simp [hd]

/-- C20: `IntToken` and `FloatToken` commute, with or without spaces; together they rewrite integers and
decimals. -/
theorem C20_commute (σ : SetOrder) (u : Unicode) (h : AsciiDigits u) (s : Str) :
    andThen (IntToken.transform σ u) (FloatToken.transform σ u) s =
        andThen (FloatToken.transform σ u) (IntToken.transform σ u) s ∧
      andThen (IntToken.transform σ u) (FloatToken.transform σ u) s =
        .ok (mapRuns (numeric u) (fun r =>
          if isInteger u r then "_int_".toList else if isFloat u r then "_float_".toList else r) s) ∧
      andThen (IntTokenWithSpace.transform σ u) (FloatTokenWithSpace.transform σ u) s =
        andThen (FloatTokenWithSpace.transform σ u) (IntTokenWithSpace.transform σ u) s := by
  have hdot : u.isDecimal '.' = false := by
    rw [← Bool.not_eq_true, h '.' (by decide)]; decide
  have hswap : ∀ t₁ t₂ : Str, mapRuns (numeric u) (fun r => if isInteger u r then t₁ else
      if isFloat u r then t₂ else r) s = mapRuns (numeric u) (fun r => if isFloat u r then t₂ else
      if isInteger u r then t₁ else r) s := by
    intro t₁ t₂
    apply mapRuns_congr
    intro r _ _
    by_cases hf : isFloat u r = true
    · simp [hf, not_integer_of_float hdot hf]
    · simp [hf]
  refine ⟨?_, ?_, ?_⟩
  · rw [andThen_eq s (C18_C19_int_token σ u s).out (C18_C19_float_token σ u hdot _).out,
      andThen_eq s (C18_C19_float_token σ u hdot s).out (C18_C19_int_token σ u _).out,
      mapRuns_token_comp _ _ _ _ _ (token_off u h _ (by decide)),
      mapRuns_token_comp _ _ _ _ _ (token_off u h _ (by decide)), hswap]
  · rw [andThen_eq s (C18_C19_int_token σ u s).out (C18_C19_float_token σ u hdot _).out,
      mapRuns_token_comp _ _ _ _ _ (token_off u h _ (by decide))]
  · rw [andThen_eq s (C18_C19_int_token_with_space σ u s).out (C18_C19_float_token_with_space σ u hdot _).out,
      andThen_eq s (C18_C19_float_token_with_space σ u hdot s).out (C18_C19_int_token_with_space σ u _).out,
      mapRuns_token_comp _ _ _ _ _ (token_off u h _ (by decide)),
      mapRuns_token_comp _ _ _ _ _ (token_off u h _ (by decide)), hswap]

/-- C20: `IntToken` never alters a decimal number: a text whose numeric runs are all decimals (or
otherwise not integers) is returned unchanged. -/
theorem C20_int_keeps_decimals (σ : SetOrder) (u : Unicode) (hdot : u.isDecimal '.' = false) (s : Str) :
    (∀ r, isFloat u r = true → isInteger u r = false) ∧
    ((∀ r ∈ runs (numeric u) s, isRunOf (numeric u) r = true → isInteger u r = false) →
      outputOf (IntToken.transform σ u s) = .ok s) := by
  refine ⟨fun r => not_integer_of_float hdot, fun hs => ?_⟩
  obtain ⟨a, ha⟩ := (C18_C19_int_token σ u s).out
  rw [ha]
  show Except.ok (mapRuns _ _ s) = _
  congr 1
  unfold mapRuns
  conv => rhs; rw [← runs_flatten (numeric u) s, List.flatten_eq_flatMap]
  apply flatMap_congr_mem
  intro r hr
  cases hb : isRunOf (numeric u) r with
  | false => rfl
  | true => simp [hs r hr hb]

/-! Concrete cases. -/

theorem asciiUnicode_digits : AsciiDigits asciiUnicode := by
  intro c hc
  have key : ∀ n : Fin 128, (asciiUnicode.isDecimal (Char.ofNat n) = true ↔
      Char.ofNat n ∈ "0123456789".toList) := by decide
  have := key ⟨c.toNat, hc⟩
  simpa only [Char.ofNat_toNat] using this

/-- "a12 3.5 1.2.3" -/
example : runs (numeric asciiUnicode) "a12 3.5 1.2.3".toList =
    ["a", "12", " ", "3.5", " ", "1.2.3"].map String.toList := by decide

example : outputOf (IntToken.transform SetOrder.id asciiUnicode "a12 3.5 1.2.3".toList) =
    .ok "a_int_ 3.5 1.2.3".toList := by
  obtain ⟨a, h⟩ := (C18_C19_int_token SetOrder.id asciiUnicode "a12 3.5 1.2.3".toList).out
  rw [h]
  rfl

example : outputOf (FloatTokenWithSpace.transform SetOrder.id asciiUnicode "a12 3.5 1.2.3".toList) =
    .ok "a12  _float_  1.2.3".toList := by
  obtain ⟨a, h⟩ := (C18_C19_float_token_with_space SetOrder.id asciiUnicode (by decide) "a12 3.5 1.2.3".toList).out
  rw [h]
  rfl

/-- Labels of "a12": the number gets its first most common label. -/
example : ∃ out a, IntToken.transform SetOrder.id asciiUnicode "a12".toList = .ok (out, a) ∧
    a.transform [1, 2, 3] = .ok [1, 2, 2, 2, 2, 2] ∧
    a.inverseTransform [1, 0, 4, 0, 4, 5] = .ok [1, 4, 4] := by
  obtain ⟨a, h1, _, h3, h4, _⟩ := (C18_C19_int_token SetOrder.id asciiUnicode "a12".toList).run
  exact ⟨_, a, h1, (h3 [1, 2, 3] rfl).trans (by decide), (h4 [1, 0, 4, 0, 4, 5] (by decide)).trans (by decide)⟩

example : andThen (IntToken.transform SetOrder.id asciiUnicode) (FloatToken.transform SetOrder.id asciiUnicode)
    "1 2.5".toList = .ok "_int_ _float_".toList := by
  rw [(C20_commute SetOrder.id asciiUnicode asciiUnicode_digits "1 2.5".toList).2.1]
  decide

end Uttut
