import Mathlib.Data.List.Forall2
import Verif.Spec.Normal
import Verif.Props.Ink
import Verif.Props.Bert

/-!
C110: the tokens depend on which steps are in a pipe, not on their order or number; pipes that end with merging and
stripping white space return the tokens with single blanks between them.
-/

namespace Uttut

open Spec

/-! ### which characters are cut off -/

theorem cutOff_eq (u : Unicode) (names : List String) (c : Char) :
    cutOff u names c =
      (((names.contains "AddWhitespaceAroundCJK" || names.contains "ZhCharTokenizer") && isCJK c) ||
      ((names.contains "AddWhitespaceAroundPunctuation" || names.contains "EngTokenizer" || names.contains "ZhCharTokenizer") &&
        isPunctuation u c)) := by
  rw [ideograph_eq, punctuation_eq]
  rfl

theorem cutOff_append (u : Unicode) (names names' : List String) (c : Char) :
    cutOff u (names ++ names') c = (cutOff u names c || cutOff u names' c) := by
  rw [cutOff_eq, cutOff_eq, cutOff_eq]
  simp only [List.contains_eq_mem, List.mem_append, Bool.decide_or]
  generalize decide ("AddWhitespaceAroundCJK" ∈ names) = a
  generalize decide ("AddWhitespaceAroundCJK" ∈ names') = a'
  generalize decide ("ZhCharTokenizer" ∈ names) = b
  generalize decide ("ZhCharTokenizer" ∈ names') = b'
  generalize decide ("EngTokenizer" ∈ names) = d
  generalize decide ("EngTokenizer" ∈ names') = d'
  generalize decide ("AddWhitespaceAroundPunctuation" ∈ names) = e
  generalize decide ("AddWhitespaceAroundPunctuation" ∈ names') = e'
  generalize isCJK c = x
  generalize isPunctuation u c = y
  cases a <;> cases a' <;> cases b <;> cases b' <;> cases d <;> cases d' <;> cases e <;> cases e' <;> cases x <;> cases y <;> rfl

theorem cutOff_cons (u : Unicode) (name : String) (names : List String) (c : Char) :
    cutOff u (name :: names) c = (cutOff u [name] c || cutOff u names c) := cutOff_append u [name] names c

theorem cutOff_lower {u : Unicode} (hcat : ∀ c ∈ capitals ++ smalls, u.isCatP c = false) (names : List String) (c : Char) :
    cutOff u names (asciiLower c) = cutOff u names c := by
  rw [cutOff_eq, cutOff_eq, lower_cjk, lower_punctuation hcat]

theorem recased_cons (name : String) (names : List String) (h : name ≠ "Lowercase") :
    recased (name :: names) = recased names := by
  funext w
  unfold recased
  rw [List.contains_cons, show ("Lowercase" == name) = false by simpa using h.symm, Bool.false_or]

theorem recased_lower (names : List String) : (recased names) ∘ (fun w : Str => w.map asciiLower) =
    recased ("Lowercase" :: names) := by
  funext w
  unfold recased
  simp only [List.contains_cons, beq_self_eq_true, Bool.true_or, if_true, Function.comp]
  split
  · exact lower_lower w
  · rfl

theorem recased_twice (names : List String) (w : Str) : recased names (recased names w) = recased names w := by
  unfold recased
  split
  · exact lower_lower w
  · rfl

/-- One step: the words of the result. -/
theorem plain_step (env : Env) (hp : ∀ c, env.u.isCatP c = true → isSpace c = false)
    (hcat : ∀ c ∈ capitals ++ smalls, env.u.isCatP c = false) (name : String) (hn : name ∈ characterNames) (op : Op)
    (h : Made env name op) (s : Str) :
    ∃ t a, op.transform (.str s) = .ok (.str t, a) ∧ ∀ own : Char → Bool, (∀ c, own (asciiLower c) = own c) →
      scanWords own t [] = (scanWords (fun c => own c || cutOff env.u [name] c) s []).map (recased [name]) := by
  have hid : ∀ n : String, n ≠ "Lowercase" → recased [n] = id := fun n hne => by
    rw [recased_cons n [] hne]; rfl
  have hno : ∀ own : Char → Bool, (fun c => own c || false) = own := fun own => by funext c; rw [Bool.or_false]
  simp only [characterNames, List.mem_cons, List.not_mem_nil, or_false] at hn
  rcases hn with rfl | rfl | rfl | rfl | rfl
  · rw [made_simple rfl h]
    obtain ⟨a, h1, _⟩ := around_carry env.σ isCJK isCJK_not_space s
    refine ⟨_, a, strOp_transform h1, fun own _ => ?_⟩
    rw [scanWords_around own isCJK isCJK_not_space, hid _ (by decide), List.map_id]
    congr 1
    funext c
    rw [cutOff_eq]
    simp
  · rw [made_simple rfl h]
    obtain ⟨a, h1, _⟩ := around_carry env.σ (isPunctuation env.u) (isPunctuation_solid hp) s
    refine ⟨_, a, strOp_transform h1, fun own _ => ?_⟩
    rw [scanWords_around own _ (isPunctuation_solid hp), hid _ (by decide), List.map_id]
    congr 1
    funext c
    rw [cutOff_eq]
    simp
  · rw [made_simple rfl h]
    obtain ⟨a, h1, _⟩ := merge_carry env.σ s
    refine ⟨_, a, strOp_transform h1, fun own _ => ?_⟩
    obtain ⟨b, _, hr⟩ := runs_isRuns isSpace s
    rw [merge_eq_mergedRuns, scanWords_merge own b _ hr, runs_flatten, hid _ (by decide), List.map_id]
    exact congrArg (fun o => scanWords o s []) (hno own).symm
  · rw [made_simple rfl h]
    obtain ⟨a, h1, _⟩ := strip_carry env.σ s
    refine ⟨_, a, strOp_transform h1, fun own _ => ?_⟩
    obtain ⟨⟨x, y, e, hx, hy⟩, _⟩ := (C22_strip_form s (strip s)).mp rfl
    rw [hid _ (by decide), List.map_id]
    refine Eq.trans ?_ (congrArg (fun o => scanWords o s []) (hno own).symm)
    have := scanWords_strip own x (strip s) y hx hy
    rw [← e] at this
    exact this.symm
  · rw [made_simple rfl h]
    obtain ⟨a, h1, _⟩ := lower_carry env.σ s
    refine ⟨_, a, strOp_transform h1, fun own ho => ?_⟩
    have := scanWords_map own asciiLower lower_space ho s []
    rw [show ([] : Str).map asciiLower = [] from rfl] at this
    rw [this, ← recased_lower []]
    exact congrArg (fun o => (scanWords o s []).map _) (hno own).symm

theorem plain_runs (env : Env) (hp : ∀ c, env.u.isCatP c = true → isSpace c = false)
    (hcat : ∀ c ∈ capitals ++ smalls, env.u.isCatP c = false) (names : List String) (steps : List Op)
    (hn : ∀ n ∈ names, n ∈ characterNames) (h : List.Forall₂ (Made env) names steps) (s : Str) :
    ∃ t rs, Runs steps (.str s) rs ∧ finalOf (.str s) rs = .str t ∧
      ∀ own : Char → Bool, (∀ c, own (asciiLower c) = own c) →
        scanWords own t [] = (scanWords (fun c => own c || cutOff env.u names c) s []).map (recased names) := by
  induction h generalizing s with
  | nil =>
    refine ⟨s, [], .nil _, rfl, fun own _ => ?_⟩
    have e : (fun c => own c || cutOff env.u [] c) = own := by
      funext c
      rw [show cutOff env.u [] c = false from rfl, Bool.or_false]
    rw [e]
    exact (List.map_id _).symm
  | @cons name op names steps hm h ih =>
    obtain ⟨u, a, h1, h2⟩ := plain_step env hp hcat name (hn name (by simp)) op hm s
    obtain ⟨t, rs, r1, r2, r3⟩ := ih (fun n hn' => hn n (by simp [hn'])) u
    refine ⟨t, (.str u, a) :: rs, .cons h1 r1, by rw [finalOf_cons]; exact r2, fun own ho => ?_⟩
    rw [r3 own ho, h2 _ (fun c => by rw [ho, cutOff_lower hcat]), List.map_map]
    have e1 : (fun c => own c || cutOff env.u names c || cutOff env.u [name] c) =
        fun c => own c || cutOff env.u (name :: names) c := by
      funext c
      rw [cutOff_cons env.u name names]
      cases own c <;> cases cutOff env.u names c <;> cases cutOff env.u [name] c <;> rfl
    rw [e1]
    congr 1
    by_cases hl : name = "Lowercase"
    · subst hl
      rw [← recased_lower names, ← recased_lower []]
      rfl
    · rw [recased_cons name names hl, recased_cons name [] hl]
      rfl

theorem tokenizer_cutOff (env : Env) (name : String) (hn : name ∈ cuttingNames) (op : Op) (h : Made env name op) :
    ∃ T n, Cutter (cutOff env.u [name]) T ∧ op = ⟨Builtin.simple n .str .list (tokOp T), [], tokOp T⟩ := by
  simp only [cuttingNames, List.mem_cons, List.not_mem_nil, or_false] at hn
  rcases hn with rfl | rfl | rfl
  · have e : cutOff env.u ["WhiteSpaceTokenizer"] = fun _ => false := by
      funext c; rw [cutOff_eq]; simp
    rw [e]
    exact ⟨_, _, C39_C42_whitespace env.σ, made_simple rfl h⟩
  · have e : cutOff env.u ["EngTokenizer"] = fun c => isPunctuation env.u c := by
      funext c; rw [cutOff_eq]; simp
    rw [e]
    exact ⟨_, _, C40_C42_eng env.σ env.u, made_simple rfl h⟩
  · have e : cutOff env.u ["ZhCharTokenizer"] = fun c => isPunctuation env.u c || isCJK c := by
      funext c; rw [cutOff_eq]; simp [Bool.or_comm]
    rw [e]
    exact ⟨_, _, C40_C42_zh env.σ env.u, made_simple rfl h⟩

/-- C110: the tokens of such a pipe are the words of the text, cut at white space and around every character one of the
steps cuts off, in small letters if one of the steps is `Lowercase`. -/
theorem C110_tokens (env : Env) (hp : ∀ c, env.u.isCatP c = true → isSpace c = false)
    (hcat : ∀ c ∈ capitals ++ smalls, env.u.isCatP c = false) (names : List String) (steps : List Op) (last : String)
    (tok : Op) (cks : List (Str × Int)) (hn : ∀ n ∈ names, n ∈ characterNames) (h : List.Forall₂ (Made env) names steps)
    (hl : last ∈ cuttingNames) (ht : Made env last tok) (s : Str) (ps : List (Str × Str)) (tail : Str)
    (hs : TokenizedBy (cutOff env.u (names ++ [last])) s ps tail) :
    ∃ as coll, (⟨steps ++ [tok], cks⟩ : Pipe).transformSequence (.str s) =
      .ok (.list (ps.map fun p => Tok.str (recased names p.2)), as, coll) := by
  obtain ⟨t, rs, r1, r2, r3⟩ := plain_runs env hp hcat names steps hn h s
  obtain ⟨T, n, hT, rfl⟩ := tokenizer_cutOff env last hl tok ht
  obtain ⟨c, qs, tl, c1, c2, _⟩ := hT t
  have run : Runs [(⟨Builtin.simple n .str .list (tokOp T), [], tokOp T⟩ : Op)] (finalOf (.str s) rs)
      [(.list ((qs.map Prod.snd).map Tok.str), c)] := by
    rw [r2]
    exact .cons (tokOp_transform c1) (.nil _)
  have hw : qs.map Prod.snd = (ps.map Prod.snd).map (recased names) := by
    rw [cutter_words c2, r3 _ (cutOff_lower hcat _), cutter_words hs]
    congr 2
    funext d
    rw [cutOff_append, Bool.or_comm]
  rw [hw, List.map_map, List.map_map] at run
  exact ⟨_, _, (C58_composition _ _ _ _ _).mpr ⟨_, Runs.append r1 run, (finalOf_append_cons _ _ _ _).symm, rfl, rfl⟩⟩

theorem plain_spacing {env : Env} {names : List String} {steps : List Op} (hn : ∀ n ∈ names, n ∈ characterNames)
    (h : List.Forall₂ (Made env) names steps) : ∀ op ∈ steps, ∃ name ∈ spacingNames, Made env name op := by
  have hsub : ∀ n ∈ characterNames, n ∈ spacingNames := by decide
  induction h with
  | nil => simp
  | @cons name op names steps hm h ih =>
    intro o ho
    rcases List.mem_cons.mp ho with rfl | ho
    · exact ⟨name, hsub _ (hn name (by simp)), hm⟩
    · exact ih (fun n hn' => hn n (by simp [hn'])) o ho

/-- C110: two such pipes that cut off the same characters and agree on `Lowercase` have the same outcome on every
sequence: the same tokens or exception, the same labels in both directions. -/
theorem C110_same (env : Env) (hp : ∀ c, env.u.isCatP c = true → isSpace c = false)
    (hcat : ∀ c ∈ capitals ++ smalls, env.u.isCatP c = false) (names names' : List String) (steps steps' : List Op)
    (last last' : String) (tok tok' : Op) (hn : ∀ n ∈ names, n ∈ characterNames) (hn' : ∀ n ∈ names', n ∈ characterNames)
    (h : List.Forall₂ (Made env) names steps) (h' : List.Forall₂ (Made env) names' steps')
    (hl : last ∈ cuttingNames) (hl' : last' ∈ cuttingNames) (ht : Made env last tok) (ht' : Made env last' tok')
    (hcut : ∀ c, cutOff env.u (names ++ [last]) c = cutOff env.u (names' ++ [last']) c)
    (hlow : "Lowercase" ∈ names ↔ "Lowercase" ∈ names') :
    Interchangeable (steps ++ [tok]) (steps' ++ [tok']) := by
  intro x
  cases x with
  | list l =>
    have key : ∀ (names : List String) (steps : List Op) (last : String) (tok : Op), (∀ n ∈ names, n ∈ characterNames) →
        List.Forall₂ (Made env) names steps → last ∈ cuttingNames → Made env last tok →
        Pipe.transformSequence ⟨steps ++ [tok], []⟩ (.list l) = .error .typeError := by
      intro names steps last tok hn h hl ht
      cases h with
      | nil =>
        obtain ⟨T, n, _, rfl⟩ := tokenizer_cutOff env last hl tok ht
        exact run_list rfl l
      | @cons name op names steps hm h =>
        rw [List.cons_append]
        refine run_list ?_ l
        have := hn name (by simp)
        simp only [characterNames, List.mem_cons, List.not_mem_nil, or_false] at this
        rcases this with rfl | rfl | rfl | rfl | rfl <;> (rw [made_simple rfl hm]; rfl)
    rw [key names steps last tok hn h hl ht, key names' steps' last' tok' hn' h' hl' ht']
    exact .error _
  | str s =>
    obtain ⟨ps, tail, hT, _⟩ := scanWords_spec (cutOff env.u (names ++ [last])) s [] (by simp) (by simp)
    rw [List.nil_append] at hT
    obtain ⟨as, coll, g⟩ := C110_tokens env hp hcat names steps last tok [] hn h hl ht s ps tail hT
    obtain ⟨bs, coll', g'⟩ := C110_tokens env hp hcat names' steps' last' tok' [] hn' h' hl' ht' s ps tail
      (by rw [← show cutOff env.u (names ++ [last]) = cutOff env.u (names' ++ [last']) from funext hcut]; exact hT)
    have hrec : recased names = recased names' := by
      funext w
      unfold recased
      simp only [List.contains_eq_mem, hlow]
    have e : ∀ ns : List String, (ps.map fun p => Tok.str (recased ns p.2)) =
        (ps.map fun p => recased ns p.2).map Tok.str := fun ns => by rw [List.map_map]; rfl
    rw [← hrec] at g'
    rw [e] at g g'
    obtain ⟨f, b⟩ := C109_same_tokens env hp steps steps' tok tok' [] [] (plain_spacing hn h) (plain_spacing hn' h')
      ⟨last, hl, ht⟩ ⟨last', hl', ht'⟩ s _ _ as bs coll coll' g g' rfl
    rw [g, g']
    exact .ok _ _ _ _ _ f b

/-- C110: the order of the steps before the tokenizer and doing a step more than once make no difference. -/
theorem C110_order (env : Env) (hp : ∀ c, env.u.isCatP c = true → isSpace c = false)
    (hcat : ∀ c ∈ capitals ++ smalls, env.u.isCatP c = false) (names names' : List String) (steps steps' : List Op)
    (last : String) (tok : Op) (hn : ∀ n ∈ names, n ∈ characterNames)
    (h : List.Forall₂ (Made env) names steps) (h' : List.Forall₂ (Made env) names' steps')
    (hl : last ∈ cuttingNames) (ht : Made env last tok) (hsame : ∀ n, n ∈ names ↔ n ∈ names') :
    Interchangeable (steps ++ [tok]) (steps' ++ [tok]) := by
  refine C110_same env hp hcat names names' steps steps' last last tok tok hn (fun n hm => hn n ((hsame n).mpr hm)) h h' hl hl
    ht ht (fun c => ?_) (hsame _)
  rw [cutOff_eq, cutOff_eq]
  simp only [List.contains_eq_mem, List.mem_append, hsame]

/-! ### normal forms -/

/-- White space is single blanks between words. -/
structure Neat (t : Str) : Prop where
  blank : ∀ c ∈ t, isSpace c = true → c = ' '
  single : ∀ x c d y, t = x ++ c :: d :: y → ¬ (isSpace c = true ∧ isSpace d = true)
  last : ∀ c ∈ t.getLast?, isSpace c = false

theorem Neat.tail {c : Char} {t : Str} (h : Neat (c :: t)) : Neat t := by
  refine ⟨fun d hd => h.blank d (by simp [hd]), fun x d e y he => h.single (c :: x) d e y (by rw [he]; rfl), fun d hd => ?_⟩
  refine h.last d ?_
  cases t with
  | nil => cases hd
  | cons e t => rw [List.getLast?_cons_cons]; exact hd

theorem neat_words (t cur : Str) (h : Neat t) (hc : cur = [] → ∀ c ∈ t.head?, isSpace c = false) :
    spacedOut (scanWords (fun _ => false) t cur) = cur ++ t := by
  induction t generalizing cur with
  | nil =>
    show spacedOut (emit cur) = _
    unfold emit
    split
    · rename_i h; rw [h]; rfl
    · rw [List.append_nil]; rfl
  | cons c t ih =>
    by_cases hs : isSpace c = true
    · have hne : cur ≠ [] := fun e => by
        rw [hc e c rfl] at hs; cases hs
      have hb := h.blank c (by simp) hs
      subst hb
      cases t with
      | nil =>
        have := h.last ' ' rfl
        rw [hs] at this
        cases this
      | cons d t =>
        have hd : isSpace d = false := by
          cases e : isSpace d with
          | false => rfl
          | true => exact absurd ⟨hs, e⟩ (h.single [] ' ' d t rfl)
        have e := ih [] h.tail (fun _ c hc => by cases hc; exact hd)
        show spacedOut (if isSpace ' ' then emit cur ++ scanWords _ (d :: t) [] else _) = _
        rw [if_pos hs, show emit cur = [cur] from if_neg hne]
        cases hw : scanWords (fun _ => false) (d :: t) [] with
        | nil => rw [hw] at e; cases e
        | cons w ws =>
          rw [hw] at e
          show cur ++ ' ' :: spacedOut (w :: ws) = _
          rw [e]
          rfl
    · show spacedOut (if isSpace c then _ else if false then _ else scanWords _ t (cur ++ [c])) = _
      rw [if_neg hs, if_neg (by simp), ih (cur ++ [c]) h.tail (fun e => by simp at e)]
      simp

theorem strip_neat (env : Env) (s : Str) : Neat (strip (mapRuns isSpace (fun _ => [' ']) s)) ∧
    ∀ c ∈ (strip (mapRuns isSpace (fun _ => [' ']) s)).head?, isSpace c = false := by
  obtain ⟨a, h1, _⟩ := C21_merge env.σ s
  obtain ⟨n1, n2⟩ := C21_no_adjacent env.σ s (mapRuns isSpace (fun _ => [' ']) s) (by
    unfold outputOf
    rw [h1]
    rfl)
  obtain ⟨⟨x, y, e, hx, hy⟩, hh, hlast⟩ := (C22_strip_form (mapRuns isSpace (fun _ => [' ']) s) _).mp rfl
  refine ⟨⟨fun c hc => n2 c ?_, fun p c d q he => ?_, hlast⟩, hh⟩
  · rw [e]
    simp [hc]
  · refine n1 (x ++ p) c d (q ++ y) ?_
    rw [he] at e
    rw [e]
    simp

/-- What a pipe that ends with merging and stripping leaves. -/
theorem normal_text (env : Env) (hp : ∀ c, env.u.isCatP c = true → isSpace c = false)
    (hcat : ∀ c ∈ capitals ++ smalls, env.u.isCatP c = false) (names : List String) (steps : List Op) (m p : Op)
    (cks : List (Str × Int)) (hn : ∀ n ∈ names, n ∈ characterNames) (h : List.Forall₂ (Made env) names steps)
    (hm : Made env "MergeWhiteSpaceCharacters" m) (hst : Made env "StripWhiteSpaceCharacters" p) (ends : List Op)
    (he : ends = [m, p] ∨ ends = [p, m]) (s : Str) :
    ∃ as coll, (⟨steps ++ ends, cks⟩ : Pipe).transformSequence (.str s) =
      .ok (.str (spacedOut ((scanWords (cutOff env.u names) s []).map (recased names))), as, coll) ∧
      ∀ own : Char → Bool, (∀ c, own (asciiLower c) = own c) → (∀ c, own c = true → cutOff env.u names c = true) →
      scanWords own (spacedOut ((scanWords (cutOff env.u names) s []).map (recased names))) [] =
        (scanWords (cutOff env.u names) s []).map (recased names) := by
  obtain ⟨t, rs, r1, r2, r3⟩ := plain_runs env hp hcat names steps hn h s
  obtain ⟨b, b1, _⟩ := merge_carry env.σ t
  obtain ⟨c, c1, _⟩ := strip_carry env.σ (mapRuns isSpace (fun _ => [' ']) t)
  obtain ⟨hneat, hhead⟩ := strip_neat env t
  obtain ⟨bb, _, hr⟩ := runs_isRuns isSpace t
  obtain ⟨⟨x, y, e, hx, hy⟩, _⟩ := (C22_strip_form (mapRuns isSpace (fun _ => [' ']) t) _).mp rfl
  have hscan : ∀ own : Char → Bool, (∀ c, own (asciiLower c) = own c) →
      scanWords own (strip (mapRuns isSpace (fun _ => [' ']) t)) [] =
        (scanWords (fun c => own c || cutOff env.u names c) s []).map (recased names) := by
    intro own ho
    rw [← r3 own ho]
    have e1 := scanWords_strip own x (strip (mapRuns isSpace (fun _ => [' ']) t)) y hx hy
    rw [← e] at e1
    rw [← e1, merge_eq_mergedRuns, scanWords_merge own bb _ hr, runs_flatten]
  have htext : strip (mapRuns isSpace (fun _ => [' ']) t) =
      spacedOut ((scanWords (cutOff env.u names) s []).map (recased names)) := by
    have e1 := neat_words _ [] hneat (fun _ => hhead)
    rw [hscan _ (fun _ => rfl)] at e1
    simpa using e1.symm
  have hmp : ∃ xs, Runs [m, p] (.str t) xs ∧
      finalOf (.str t) xs = .str (spacedOut ((scanWords (cutOff env.u names) s []).map (recased names))) := by
    have hm := made_simple (env := env) (name := "MergeWhiteSpaceCharacters") rfl hm
    have hst := made_simple (env := env) (name := "StripWhiteSpaceCharacters") rfl hst
    subst hm hst
    rw [← htext]
    exact ⟨_, .cons (strOp_transform b1) (.cons (strOp_transform c1) (.nil _)), rfl⟩
  have hends : ∃ xs, Runs ends (.str t) xs ∧
      finalOf (.str t) xs = .str (spacedOut ((scanWords (cutOff env.u names) s []).map (recased names))) := by
    rcases he with rfl | rfl
    · exact hmp
    · obtain ⟨xs, x1, x2⟩ := hmp
      have g := (C58_composition ⟨[m, p], []⟩ _ _ _ _).mpr ⟨xs, x1, x2.symm, rfl, rfl⟩
      have g' := C76_merge_strip env m p hm hst (.str t)
      rw [g] at g'
      generalize hq : Pipe.transformSequence ⟨[p, m], []⟩ (.str t) = q at g'
      cases g' with
      | ok out as bs coll coll' _ _ =>
        obtain ⟨ys, y1, y2, _⟩ := (C58_composition _ _ _ _ _).mp hq
        exact ⟨ys, y1, y2.symm⟩
  obtain ⟨xs, x1, x2⟩ := hends
  refine ⟨(rs ++ xs).map Prod.snd, _, (C58_composition _ _ _ _ _).mpr ⟨rs ++ xs, Runs.append r1 (by rw [r2]; exact x1), ?_, rfl, rfl⟩,
    fun own ho hsub => ?_⟩
  · rw [← x2, ← r2, finalOf_append]
  · rw [← htext, hscan own ho]
    congr 2
    funext d
    cases h1 : own d with
    | false => rfl
    | true => rw [hsub d h1]; rfl

/-- C110: a pipe of such steps whose last two are merging and stripping white space, in either order, returns the words of
the text, cut as by a tokenizer, with single blanks between them. -/
theorem C110_normal (env : Env) (hp : ∀ c, env.u.isCatP c = true → isSpace c = false)
    (hcat : ∀ c ∈ capitals ++ smalls, env.u.isCatP c = false) (names : List String) (steps : List Op) (m p : Op)
    (cks : List (Str × Int)) (hn : ∀ n ∈ names, n ∈ characterNames) (h : List.Forall₂ (Made env) names steps)
    (hm : Made env "MergeWhiteSpaceCharacters" m) (hst : Made env "StripWhiteSpaceCharacters" p) (ends : List Op)
    (he : ends = [m, p] ∨ ends = [p, m]) (s : Str) (ps : List (Str × Str)) (tail : Str)
    (hs : TokenizedBy (cutOff env.u names) s ps tail) :
    ∃ as coll, (⟨steps ++ ends, cks⟩ : Pipe).transformSequence (.str s) =
      .ok (.str (spacedOut (ps.map fun x => recased names x.2)), as, coll) := by
  obtain ⟨as, coll, g, _⟩ := normal_text env hp hcat names steps m p cks hn h hm hst ends he s
  rw [← cutter_words hs, List.map_map] at g
  exact ⟨as, coll, g⟩

/-- C110: such a pipe changes nothing in what it has returned; and it returns the same for two texts exactly if they have
the same words. -/
theorem C110_normal_form (env : Env) (hp : ∀ c, env.u.isCatP c = true → isSpace c = false)
    (hcat : ∀ c ∈ capitals ++ smalls, env.u.isCatP c = false) (names : List String) (steps : List Op) (m p : Op)
    (cks : List (Str × Int)) (hn : ∀ n ∈ names, n ∈ characterNames) (h : List.Forall₂ (Made env) names steps)
    (hm : Made env "MergeWhiteSpaceCharacters" m) (hst : Made env "StripWhiteSpaceCharacters" p) (ends : List Op)
    (he : ends = [m, p] ∨ ends = [p, m]) :
    ∃ N : Str → Str, (∀ s, ∃ as coll, (⟨steps ++ ends, cks⟩ : Pipe).transformSequence (.str s) = .ok (.str (N s), as, coll)) ∧
      (∀ s, N (N s) = N s) ∧
      ∀ s s' ps ps' tail tail', TokenizedBy (cutOff env.u names) s ps tail → TokenizedBy (cutOff env.u names) s' ps' tail' →
        (N s = N s' ↔ (ps.map fun x => recased names x.2) = ps'.map fun x => recased names x.2) := by
  refine ⟨fun s => spacedOut ((scanWords (cutOff env.u names) s []).map (recased names)), fun s => ?_, fun s => ?_, ?_⟩
  · obtain ⟨as, coll, g, _⟩ := normal_text env hp hcat names steps m p cks hn h hm hst ends he s
    exact ⟨as, coll, g⟩
  · obtain ⟨_, _, _, g⟩ := normal_text env hp hcat names steps m p cks hn h hm hst ends he s
    dsimp only
    rw [g _ (cutOff_lower hcat _) (fun _ hc => hc), List.map_map]
    congr 1
    exact List.map_congr_left fun w _ => recased_twice names w
  · intro s s' ps ps' tail tail' hs hs'
    have e : ∀ {s : Str} {ps : List (Str × Str)} {tail : Str}, TokenizedBy (cutOff env.u names) s ps tail →
        (ps.map fun x => recased names x.2) = (scanWords (cutOff env.u names) s []).map (recased names) := by
      intro s ps tail hs
      rw [← cutter_words hs, List.map_map]
      rfl
    rw [e hs, e hs']
    dsimp only
    constructor
    · intro heq
      obtain ⟨_, _, _, g⟩ := normal_text env hp hcat names steps m p cks hn h hm hst ends he s
      obtain ⟨_, _, _, g'⟩ := normal_text env hp hcat names steps m p cks hn h hm hst ends he s'
      rw [← g _ (cutOff_lower hcat _) (fun _ hc => hc), ← g' _ (cutOff_lower hcat _) (fun _ hc => hc), heq]
    · intro heq
      rw [heq]

/-! ### examples -/

/-- `StripWhiteSpaceCharacters()`. -/
def exStripOp : Op := ⟨Builtin.stripWs exEnv, [], strOp (StripWhiteSpaceCharacters.transform exEnv.σ)⟩

/-- The hypotheses of `C110_tokens` and `C110_normal` hold of steps in an order, and of the same steps in another one with
one of them repeated. -/
example : (∀ c, exEnv.u.isCatP c = true → isSpace c = false) ∧ (∀ c ∈ capitals ++ smalls, exEnv.u.isCatP c = false) ∧
    (∀ n ∈ ["Lowercase", "AddWhitespaceAroundPunctuation"], n ∈ characterNames) ∧
    List.Forall₂ (Made exEnv) ["Lowercase", "AddWhitespaceAroundPunctuation"] [exLower, exSpaced] ∧
    List.Forall₂ (Made exEnv) ["AddWhitespaceAroundPunctuation", "Lowercase", "AddWhitespaceAroundPunctuation"]
      [exSpaced, exLower, exSpaced] ∧
    Made exEnv "WhiteSpaceTokenizer" exWordsOp ∧ Made exEnv "MergeWhiteSpaceCharacters" exMerge ∧
    Made exEnv "StripWhiteSpaceCharacters" exStripOp :=
  ⟨fun c h => (by have h : asciiUnicode.isCatP c = true := h; cases h), fun _ _ => rfl, by decide,
    .cons ⟨[], [], rfl⟩ (.cons ⟨[], [], rfl⟩ .nil),
    .cons ⟨[], [], rfl⟩ (.cons ⟨[], [], rfl⟩ (.cons ⟨[], [], rfl⟩ .nil)), ⟨[], [], rfl⟩, ⟨[], [], rfl⟩, ⟨[], [], rfl⟩⟩

/-- The words of a text, the tokens and the normal form. -/
example : TokenizedBy (cutOff exEnv.u ["Lowercase", "AddWhitespaceAroundPunctuation"]) "Hi,\t You".toList
      [([], "Hi".toList), ([], ",".toList), ("\t ".toList, "You".toList)] [] ∧
    ((⟨[exLower, exSpaced] ++ [exWordsOp], []⟩ : Pipe).transformSequence (.str "Hi,\t You".toList)).map Prod.fst =
      .ok (.list [.str "hi".toList, .str ",".toList, .str "you".toList]) ∧
    ((⟨[exLower, exSpaced] ++ [exMerge, exStripOp], []⟩ : Pipe).transformSequence (.str "Hi,\t You".toList)).map Prod.fst =
      .ok (.str (spacedOut ["hi".toList, ",".toList, "you".toList])) ∧
    spacedOut ["hi".toList, ",".toList, "you".toList] = "hi , you".toList :=
  ⟨⟨by decide, by decide, by decide, by decide, by decide, by decide,
    ⟨fun _ => Or.inr ⟨',', rfl, by decide⟩, fun h => (by cases h), trivial⟩⟩, rfl, rfl, by decide⟩

/-- C110: with words of the user among the steps the order matters. -/
theorem C110_words_differ : ∃ op, Made exEnv "AddWhitespaceAroundWordnZhChar" op ∧
    ((⟨[exLower, op] ++ [exWordsOp], []⟩ : Pipe).transformSequence (.str "ABc".toList)).map Prod.fst =
      .ok (.list [.str "ab".toList, .str "c".toList]) ∧
    ((⟨[op, exLower] ++ [exWordsOp], []⟩ : Pipe).transformSequence (.str "ABc".toList)).map Prod.fst =
      .ok (.list [.str "abc".toList]) :=
  ⟨_, ⟨[.list [.str "ab".toList], .bool false], [], rfl⟩, rfl, rfl⟩

end Uttut
