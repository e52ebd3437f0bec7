import Verif.Lemmas.Arguments
import Verif.Lemmas.Seeds

/-!
C72: results do not depend on Python's hash seed, that is on the iteration order of sets, except for `AddSosEos` on
the empty list (C29).
-/

namespace Uttut

open Spec Piece

/-! ### The operators one by one -/

theorem same_strip_accent (σ σ' : SetOrder) (u : Unicode) (s : Str) :
    SameRes (StripAccentToken.transform σ u s) (StripAccentToken.transform σ' u s) := by
  unfold StripAccentToken.transform
  dsimp only
  split
  · rename_i h
    refine same_charwise σ σ' Prod.fst (fun p => if p.1 ≠ p.2 then some [p.2] else none) _ s ?_ _ _ neutral_except
    rw [List.map_fst_zip]
    omega
  · exact .error _

theorem same_around_word (σ σ' : SetOrder) (ws : List Str) (t : Trie) (ht : Trie.ofUserWords ws = .ok t) (sh : Bool)
    (s : Str) :
    SameRes (AddWhitespaceAroundWordnZhChar.transform σ t sh s)
      (AddWhitespaceAroundWordnZhChar.transform σ' t sh s) := by
  obtain ⟨a, segs, h1, h2, h3, h4, h5, h6, _⟩ := C38_spaces σ ws t ht sh s
  obtain ⟨a', segs', h1', h2', h3', h4', h5', h6', _⟩ := C38_spaces σ' ws t ht sh s
  have := C37_division_unique ws sh s segs segs' h1 h1'
  subst this
  rw [h3, h3']
  refine .ok _ _ _ (.of_exact (h4.input.trans h4'.input.symm) (h4.output.trans h4'.output.symm) ?_ ?_)
  · intro ls hl
    rw [h4.input] at hl
    rw [h5 ls hl, h5' ls hl]
  · intro ls hl
    rw [h4.output] at hl
    rw [h6 ls hl, h6' ls hl]

theorem same_lowercase (σ σ' : SetOrder) (s : Str) :
    SameRes (Lowercase.transform σ s) (Lowercase.transform σ' s) := by
  obtain ⟨a, h1, h2, h3⟩ := C16_lowercase σ s
  obtain ⟨a', h1', h2', h3'⟩ := C16_lowercase σ' s
  rw [h1, h1']
  refine .ok _ _ _ (.of_exact (h2.input.trans h2'.input.symm) (h2.output.trans h2'.output.symm) ?_ ?_)
  · intro ls hl
    rw [h2.input] at hl
    rw [(h3 ls hl).1, (h3' ls hl).1]
  · intro ls hl
    rw [h2.output] at hl
    rw [(h3 ls hl).2, (h3' ls hl).2]

theorem same_sos_eos (σ σ' : SetOrder) (sos eos : Tok) (l : List Tok) (hne : l ≠ []) :
    SameRes (AddSosEos.transform σ sos eos l) (AddSosEos.transform σ' sos eos l) := by
  by_cases hlen : l.length < 2 ^ 32
  · obtain ⟨a, h1, h2, h3, h4⟩ := C28_add_sos_eos σ sos eos l hne hlen
    obtain ⟨a', h1', h2', h3', h4'⟩ := C28_add_sos_eos σ' sos eos l hne hlen
    rw [h1, h1']
    refine .ok _ _ _ (.of_exact (h2.input.trans h2'.input.symm) (h2.output.trans h2'.output.symm) ?_ ?_)
    · intro ls hl
      rw [h2.input] at hl
      rw [h3 ls hl, h3' ls hl]
    · intro ls hl
      rw [h2.output] at hl
      cases ls with
      | nil => simp at hl
      | cons x ls =>
        have hn : ls ≠ [] := by
          rintro rfl
          simp at hl
        rw [← List.dropLast_append_getLast hn, ← List.cons_append]
        have hl' : ls.dropLast.length = l.length := by
          simp at hl ⊢
          omega
        rw [h4 _ x _ hl', h4' _ x _ hl']
  · have h : ∀ σ, AddSosEos.transform σ sos eos l = .error .overflowError := by
      intro σ
      unfold AddSosEos.transform
      rw [C04_addAll_overflow σ _ ⟨((l.length : Int), (l.length : Int), [eos]), by simp, by
        right; left
        show (2 ^ 32 : Int) ≤ (l.length : Int)
        omega⟩]
      rfl
    rw [h σ, h σ']
    exact .error _

theorem same_end_token (σ σ' : SetOrder) (eos : Tok) (l : List Tok) :
    SameRes (AddEndToken.transform σ eos l) (AddEndToken.transform σ' eos l) := by
  by_cases hlen : l.length < 2 ^ 32
  · obtain ⟨a, h1, h2, h3, h4⟩ := C28_add_end_token σ eos l hlen
    obtain ⟨a', h1', h2', h3', h4'⟩ := C28_add_end_token σ' eos l hlen
    rw [h1, h1']
    refine .ok _ _ _ (.of_exact (h2.input.trans h2'.input.symm) (h2.output.trans h2'.output.symm) ?_ ?_)
    · intro ls hl
      rw [h2.input] at hl
      rw [h3 ls hl, h3' ls hl]
    · intro ls hl
      rw [h2.output] at hl
      have hn : ls ≠ [] := by
        rintro rfl
        simp at hl
      rw [← List.dropLast_append_getLast hn]
      have hl' : ls.dropLast.length = l.length := by
        simp at hl ⊢
        omega
      rw [h4 _ _ hl', h4' _ _ hl']
  · have h : ∀ σ, AddEndToken.transform σ eos l = .error .overflowError := by
      intro σ
      unfold AddEndToken.transform
      rw [C04_addAll_overflow σ _ ⟨((l.length : Int), (l.length : Int), [eos]), by simp, by
        right; left
        show (2 ^ 32 : Int) ≤ (l.length : Int)
        omega⟩]
      rfl
    rw [h σ, h σ']
    exact .error _

theorem same_pad (σ σ' : SetOrder) (maxlen : Int) (pad : Tok) (l : List Tok) :
    SameRes (Pad.transform σ maxlen pad l) (Pad.transform σ' maxlen pad l) := by
  by_cases hm : maxlen < 0
  · rw [C30_negative σ maxlen pad l hm, C30_negative σ' maxlen pad l hm]
    exact .error _
  · obtain ⟨n, rfl⟩ := Int.eq_ofNat_of_zero_le (Int.not_lt.mp hm)
    by_cases hlen : l.length = n ∨ l.length < 2 ^ 32
    · obtain ⟨a, h1, h2, h3, h4⟩ := C30_pad σ n pad l hlen
      obtain ⟨a', h1', h2', h3', h4'⟩ := C30_pad σ' n pad l hlen
      rw [h1, h1']
      refine .ok _ _ _ (.of_exact (h2.input.trans h2'.input.symm) (h2.output.trans h2'.output.symm) ?_ ?_)
      · intro ls hl
        rw [h2.input] at hl
        rw [h3 ls hl, h3' ls hl]
      · intro ls hl
        rw [h2.output] at hl
        rw [h4 ls hl, h4' ls hl]
    · have h : ∀ σ, Pad.transform σ (n : Int) pad l = .error .overflowError := by
        intro σ
        unfold Pad.transform Pad.group
        dsimp only
        rw [if_neg (by omega)]
        split
        · rw [C04_addAll_overflow σ _ ⟨((n : Int), (l.length : Int), []), by simp, by
            right; right; right
            show (2 ^ 32 : Int) ≤ (l.length : Int)
            omega⟩]
          rfl
        · rw [C04_addAll_overflow σ _ ⟨((l.length : Int), (l.length : Int),
            List.replicate ((n : Int) - (l.length : Int)).toNat pad), by simp, by
            right; left
            show (2 ^ 32 : Int) ≤ (l.length : Int)
            omega⟩]
          rfl
      rw [h σ, h σ']
      exact .error _

theorem same_null_tokenwise (σ σ' : SetOrder) (nv : Tok → Res (Option (List Tok))) (l : List Tok) :
    SameRes (tokenwiseTransform σ nv l fun _ n => Aligner.null l.length n)
      (tokenwiseTransform σ' nv l fun _ n => Aligner.null l.length n) :=
  same_tokenwise σ σ' nv l _ _ fun _ _ => .refl _

/-! ### Classes -/

/-- Two classes with the same signature whose objects answer alike. -/
structure Twin (c c' : OpClass) : Prop where
  name : c.name = c'.name
  inputType : c.inputType = c'.inputType
  outputType : c.outputType = c'.outputType
  params : c.params = c'.params
  defaults : c.defaults = c'.defaults
  ownInit : c.ownInit = c'.ownInit
  init : ∀ vals, (∃ e, c.init vals = .error e ∧ c'.init vals = .error e) ∨
    ∃ r r', c.init vals = .ok r ∧ c'.init vals = .ok r' ∧
      ∀ s, (c.name = "AddSosEos".toList → s ≠ .list []) → SameRes (r s) (r' s)

theorem twin_call {c c' : OpClass} (h : Twin c c') (args : List PyVal) (kwargs : List (Str × PyVal)) :
    SameCreated (c.call args kwargs) (c'.call args kwargs) := by
  have hb : c'.bindArgs args kwargs = c.bindArgs args kwargs := by
    have : c'.bindParam kwargs = c.bindParam kwargs := by
      funext p
      unfold OpClass.bindParam OpClass.default?
      rw [h.params, h.defaults]
    unfold OpClass.bindArgs
    rw [this, h.params]
  have hcap : c'.capture args kwargs = c.capture args kwargs := by
    unfold OpClass.capture OpClass.argspec
    rw [h.params, h.defaults, h.ownInit]
  unfold OpClass.call
  rw [hb, hcap]
  cases c.bindArgs args kwargs with
  | error e => exact .error e
  | ok vals =>
    simp only [Except.bind_ok]
    rcases h.init vals with ⟨e, h1, h2⟩ | ⟨r, r', h1, h2, h3⟩
    · rw [h1, h2]
      exact .error e
    · rw [h1, h2]
      refine .ok _ _ ⟨h.name, h.inputType, h.outputType, rfl, fun s hs => ?_⟩
      unfold Op.transform
      dsimp only
      rw [← h.inputType, ← h.outputType]
      split
      · exact .error _
      · have := h3 s hs
        revert this
        generalize r s = x
        generalize r' s = y
        intro hxy
        cases hxy with
        | error e => exact .error e
        | ok out a b hab =>
          simp only [Except.bind_ok]
          split
          · exact .error _
          · exact .ok _ _ _ hab

theorem same_strOp {f g : Str → Res (Str × Aligner)} (h : ∀ s, SameRes (f s) (g s)) (s : Seq) :
    SameRes (strOp f s) (strOp g s) := by
  cases s with
  | list l => exact .error _
  | str s =>
    have := h s
    unfold strOp
    dsimp only
    generalize f s = x at this
    generalize g s = y at this
    cases this with
    | error e => exact .error e
    | ok out a b hab => exact .ok _ _ _ hab

theorem same_tokOp {f g : Str → Res (List Str × Aligner)} (h : ∀ s, SameRes (f s) (g s)) (s : Seq) :
    SameRes (tokOp f s) (tokOp g s) := by
  cases s with
  | list l => exact .error _
  | str s =>
    have := h s
    unfold tokOp
    dsimp only
    generalize f s = x at this
    generalize g s = y at this
    cases this with
    | error e => exact .error e
    | ok out a b hab => exact .ok _ _ _ hab

theorem same_lstOp {f g : List Tok → Res (List Tok × Aligner)} (ok : List Tok → Prop)
    (h : ∀ l, ok l → SameRes (f l) (g l)) (s : Seq) (hs : ∀ l, s = .list l → ok l) :
    SameRes (lstOp f s) (lstOp g s) := by
  cases s with
  | str l => exact .error _
  | list l =>
    have := h l (hs l rfl)
    unfold lstOp
    dsimp only
    generalize f l = x at this
    generalize g l = y at this
    cases this with
    | error e => exact .error e
    | ok out a b hab => exact .ok _ _ _ hab

theorem same_lstOp' {f g : List Tok → Res (List Tok × Aligner)} (h : ∀ l, SameRes (f l) (g l)) (s : Seq) :
    SameRes (lstOp f s) (lstOp g s) := same_lstOp (fun _ => True) (fun l _ => h l) s fun _ _ => trivial

theorem twin_simple {name : String} {i o : SeqType} {r r' : Seq → Res (Seq × Aligner)}
    (h : ∀ s, SameRes (r s) (r' s)) : Twin (Builtin.simple name i o r) (Builtin.simple name i o r') :=
  ⟨rfl, rfl, rfl, rfl, rfl, rfl, fun _ => .inr ⟨r, r', rfl, rfl, fun s _ => h s⟩⟩

/-- Two constructors made alike by the same steps. -/
theorem twin_bind {α β : Type} {P : β → β → Prop} (x : Res α) (k k' : α → Res β)
    (h : ∀ a, x = .ok a → (∃ e, k a = .error e ∧ k' a = .error e) ∨ ∃ r r', k a = .ok r ∧ k' a = .ok r' ∧ P r r') :
    (∃ e, (x >>= k) = .error e ∧ (x >>= k') = .error e) ∨
      ∃ r r', (x >>= k) = .ok r ∧ (x >>= k') = .ok r' ∧ P r r' := by
  cases x with
  | error e => exact .inl ⟨e, rfl, rfl⟩
  | ok a => exact h a rfl

theorem twins (env : Env) (he : env.Sane) (σ' : SetOrder) :
    Pairwise₂ Twin (Builtin.all env) (Builtin.all { env with σ := σ' }) := by
  have hre : ∀ (r : Re) s, SoundMatcher r.search s := C24_regex_sound
  have chars : ∀ valid : Char → Bool, ∀ s, SameRes (AddWhitespaceAroundChar.transform env.σ valid s)
      (AddWhitespaceAroundChar.transform σ' valid s) := fun valid s =>
    same_charwise env.σ σ' id (fun c => if valid c then some [' ', c, ' '] else none) s s (by simp) _ _ neutral_except
  have toks := fun f b s ts => same_tokenizer env.σ σ' f b s ts
  refine .cons _ _ _ _ ⟨rfl, rfl, rfl, rfl, rfl, rfl, fun _ => .inl ⟨_, rfl, rfl⟩⟩ ?_
  refine .cons _ _ _ _ (twin_simple (same_strOp fun s => ?_)) ?_
  · unfold charwiseTransform
    cases s with
    | nil => exact same_charwise env.σ σ' id (fun _ => none) [] [] rfl _ _ neutral_except
    | cons c s => exact .error _
  refine .cons _ _ _ _ (twin_simple fun s => .refl _) ?_
  refine .cons _ _ _ _ (twin_simple fun s => .refl _) ?_
  refine .cons _ _ _ _ (twin_simple (same_strOp (same_lowercase env.σ σ'))) ?_
  refine .cons _ _ _ _ (twin_simple (same_strOp (chars _))) ?_
  refine .cons _ _ _ _ (twin_simple (same_strOp (chars _))) ?_
  refine .cons _ _ _ _ ⟨rfl, rfl, rfl, rfl, rfl, rfl, fun vals => ?_⟩ ?_
  · show (∃ e, Builtin.aroundWordInit env vals = .error e ∧ Builtin.aroundWordInit _ vals = .error e) ∨ _
    unfold Builtin.aroundWord
    dsimp only
    unfold Builtin.aroundWordInit
    split
    · refine twin_bind _ _ _ fun t ht => ?_
      obtain ⟨ws, hw⟩ := userWords_ok ht
      exact .inr ⟨_, _, rfl, rfl, fun s _ => same_strOp (same_around_word env.σ σ' ws t hw _) s⟩
    · exact .inl ⟨_, rfl, rfl⟩
  refine .cons _ _ _ _ (twin_simple (same_strOp (same_strip_accent env.σ σ' env.u))) ?_
  refine .cons _ _ _ _ (twin_simple (same_strOp fun s => same_charwise env.σ σ' id
    (fun c => if isPunctuation env.u c && !(c == '.') then some [' '] else none) s s (by simp) _ _
    neutral_notEntity)) ?_
  refine .cons _ _ _ _ (twin_simple (same_strOp fun s =>
    same_pattern env.σ σ' _ _ _ _ s (hre _ s) (.inl neutral_except))) ?_
  refine .cons _ _ _ _ (twin_simple (same_strOp fun s =>
    same_pattern env.σ σ' _ _ _ _ s (hre _ s) (.inl neutral_except))) ?_
  refine .cons _ _ _ _ (twin_simple (same_strOp fun s =>
    same_pattern env.σ σ' _ _ _ _ s (hre _ s) (.inl neutral_except))) ?_
  refine .cons _ _ _ _ (twin_simple (same_strOp fun s =>
    same_pattern env.σ σ' _ _ _ _ s (hre _ s) (.inl neutral_except))) ?_
  refine .cons _ _ _ _ (twin_simple (same_strOp fun s =>
    same_pattern env.σ σ' _ _ _ _ s (hre _ s) (.inr (by simp)))) ?_
  refine .cons _ _ _ _ (twin_simple (same_strOp fun s =>
    same_pattern env.σ σ' _ _ _ _ s (hre _ s) (.inl neutral_notEntity))) ?_
  refine .cons _ _ _ _ (twin_simple (same_strOp fun s =>
    same_pattern env.σ σ' _ _ _ _ s (hre _ s) (.inl neutral_notEntity))) ?_
  refine .cons _ _ _ _ (twin_simple (same_strOp fun s =>
    same_pattern env.σ σ' _ _ _ _ s (hre _ s) (.inl neutral_except))) ?_
  refine .cons _ _ _ _ ⟨rfl, rfl, rfl, rfl, rfl, rfl, fun vals => ?_⟩ ?_
  · unfold Builtin.replace
    dsimp only
    unfold Builtin.replaceInit
    split
    · refine twin_bind _ _ _ fun p _ => ?_
      dsimp only
      cases hm : env.compile p with
      | none => exact .inl ⟨_, rfl, rfl⟩
      | some m =>
        have hsame : ∀ new s, SameRes (ReplaceAwithB.transform env.σ m new s) (ReplaceAwithB.transform σ' m new s) :=
          fun new s => same_pattern env.σ σ' _ _ _ _ s (he.sound p m hm s) (.inl neutral_except)
        dsimp only
        split
        · exact .inr ⟨_, _, rfl, rfl, fun s _ => same_strOp (hsame _) s⟩
        · refine .inr ⟨_, _, rfl, rfl, fun s _ => same_strOp (fun s => ?_) s⟩
          have := hsame [' '] s
          unfold Builtin.replaceNoStr
          dsimp only
          generalize ReplaceAwithB.transform env.σ m [' '] s = x at this ⊢
          generalize ReplaceAwithB.transform σ' m [' '] s = y at this ⊢
          cases this with
          | error e => exact .error e
          | ok out a b hab =>
            show SameRes (if _ then _ else _) (if _ then _ else _)
            split
            · exact .error _
            · exact .ok _ _ _ hab
    · exact .inl ⟨_, rfl, rfl⟩
  refine .cons _ _ _ _ (twin_simple (same_tokOp fun s => toks _ _ s _)) ?_
  refine .cons _ _ _ _ (twin_simple (same_tokOp fun s => toks _ _ s _)) ?_
  refine .cons _ _ _ _ (twin_simple (same_tokOp fun s => toks _ _ s _)) ?_
  refine .cons _ _ _ _ (twin_simple (same_tokOp fun s => toks _ _ s _)) ?_
  refine .cons _ _ _ _ ⟨rfl, rfl, rfl, rfl, rfl, rfl, fun vals => ?_⟩ ?_
  · unfold Builtin.customTok
    dsimp only
    unfold Builtin.customTokInit
    split
    · refine twin_bind _ _ _ fun t _ => ?_
      refine .inr ⟨_, _, rfl, rfl, fun s _ => same_tokOp (fun s => ?_) s⟩
      unfold CustomWordTokenizer.transform
      split
      · exact .error _
      · exact toks _ _ s _
    · exact .inl ⟨_, rfl, rfl⟩
  refine .cons _ _ _ _ ⟨rfl, rfl, rfl, rfl, rfl, rfl, fun vals => ?_⟩ ?_
  · unfold Builtin.sosEos
    dsimp only
    unfold Builtin.sosEosInit
    split
    · refine twin_bind _ _ _ fun a _ => twin_bind _ _ _ fun b _ => ?_
      refine .inr ⟨_, _, rfl, rfl, fun s hs => same_lstOp (· ≠ []) (fun l hl => same_sos_eos env.σ σ' _ _ l hl) s ?_⟩
      rintro l rfl rfl
      exact hs rfl rfl
    · exact .inl ⟨_, rfl, rfl⟩
  refine .cons _ _ _ _ ⟨rfl, rfl, rfl, rfl, rfl, rfl, fun vals => ?_⟩ ?_
  · unfold Builtin.pad
    dsimp only
    unfold Builtin.padInit
    split
    · rename_i n _
      refine twin_bind _ _ _ fun b _ => ?_
      refine .inr ⟨_, _, rfl, rfl, fun s _ => same_lstOp' (fun l => ?_) s⟩
      cases n.asInt with
      | error e => exact .error e
      | ok n => exact same_pad env.σ σ' _ _ l
    · exact .inl ⟨_, rfl, rfl⟩
  refine .cons _ _ _ _ ⟨rfl, rfl, rfl, rfl, rfl, rfl, fun vals => ?_⟩ ?_
  · unfold Builtin.token2index
    dsimp only
    unfold Builtin.token2indexInit
    split
    · refine twin_bind _ _ _ fun d _ => ?_
      split
      · refine twin_bind _ _ _ fun _ _ => ?_
        exact .inr ⟨_, _, rfl, rfl, fun s _ => same_lstOp' (fun l => same_null_tokenwise env.σ σ' _ l) s⟩
      · refine twin_bind _ _ _ fun _ _ => ?_
        split <;> exact .inl ⟨_, rfl, rfl⟩
    · exact .inl ⟨_, rfl, rfl⟩
  refine .cons _ _ _ _ ⟨rfl, rfl, rfl, rfl, rfl, rfl, fun vals => ?_⟩ ?_
  · unfold Builtin.spanSubwords
    dsimp only
    unfold Builtin.spanSubwordsInit
    split
    · refine twin_bind _ _ _ fun unk _ => ?_
      have hsame : ∀ has n l, SameRes (SpanSubwords.transform env.σ has unk n l) (SpanSubwords.transform σ' has unk n l) :=
        fun has n l => same_tokenwise env.σ σ' _ l _ _ fun ps hps =>
          same_lstEdit env.σ σ' ps l _ _ _ hps rfl (.inl neutral_except)
      refine .inr ⟨_, _, rfl, rfl, fun s _ => same_lstOp' (fun l => ?_) s⟩
      unfold Builtin.spanSubwordsRun
      split
      · exact hsame _ _ _
      · split
        · exact .error _
        · exact hsame _ _ _
      · split
        · exact hsame _ _ _
        · exact .error _
    · exact .inl ⟨_, rfl, rfl⟩
  refine .cons _ _ _ _ ⟨rfl, rfl, rfl, rfl, rfl, rfl, fun vals => ?_⟩ ?_
  · unfold Builtin.token2indexHash
    dsimp only
    unfold Builtin.token2indexHashInit
    split
    · refine twin_bind _ _ _ fun d _ => twin_bind _ _ _ fun _ _ => ?_
      exact .inr ⟨_, _, rfl, rfl, fun s _ => same_lstOp' (fun l => same_null_tokenwise env.σ σ' _ l) s⟩
    · exact .inl ⟨_, rfl, rfl⟩
  refine .cons _ _ _ _ ⟨rfl, rfl, rfl, rfl, rfl, rfl, fun vals => ?_⟩ ?_
  · unfold Builtin.pureNum
    dsimp only
    unfold Builtin.pureNumInit
    split
    · exact .inr ⟨_, _, rfl, rfl, fun s _ => same_lstOp' (fun l => same_null_tokenwise env.σ σ' _ l) s⟩
    · refine twin_bind _ _ _ fun d _ => ?_
      exact .inr ⟨_, _, rfl, rfl, fun s _ => same_lstOp' (fun l => same_null_tokenwise env.σ σ' _ l) s⟩
    · exact .inl ⟨_, rfl, rfl⟩
  refine .cons _ _ _ _ ⟨rfl, rfl, rfl, rfl, rfl, rfl, fun vals => ?_⟩ .nil
  unfold Builtin.endTok
  dsimp only
  unfold Builtin.endTokInit
  split
  · exact .inl ⟨_, rfl, rfl⟩
  · refine twin_bind _ _ _ fun d _ => twin_bind _ _ _ fun _ _ => ?_
    exact .inr ⟨_, _, rfl, rfl, fun s _ => same_lstOp' (fun l => same_end_token env.σ σ' _ l) s⟩
  · exact .inl ⟨_, rfl, rfl⟩

/-! ### C72 -/

theorem Spec.Pairwise₂.getElem? {α : Type} {R : α → α → Prop} {xs ys : List α} (h : Pairwise₂ R xs ys) (i : Nat) {x y : α}
    (hx : xs[i]? = some x) (hy : ys[i]? = some y) : R x y := by
  induction h generalizing i with
  | nil => cases hx
  | cons a b xs ys hab _ ih =>
    cases i with
    | zero =>
      injection hx with hx
      injection hy with hy
      subst hx; subst hy
      exact hab
    | succ i => exact ih i hx hy

/-- C72: whatever the hash seed, calling an operator class with the same arguments raises the same exception or gives
operators with the same answers to all inputs (and aligners with the same answers to all labels). -/
theorem C72_operator (env : Env) (he : env.Sane) (σ' : SetOrder) (i : Nat) (c c' : OpClass)
    (hc : (Builtin.all env)[i]? = some c) (hc' : (Builtin.all { env with σ := σ' })[i]? = some c')
    (args : List PyVal) (kwargs : List (Str × PyVal)) :
    SameCreated (c.call args kwargs) (c'.call args kwargs) :=
  twin_call ((twins env he σ').getElem? i hc hc') args kwargs

theorem get_twins {cs cs' : List OpClass} (h : Pairwise₂ Twin cs cs') (name : Str) :
    (dictGet (cs.map fun c => (c.name, c)) name = none ∧ dictGet (cs'.map fun c => (c.name, c)) name = none) ∨
    ∃ c c', dictGet (cs.map fun c => (c.name, c)) name = some c ∧
      dictGet (cs'.map fun c => (c.name, c)) name = some c' ∧ Twin c c' := by
  induction h with
  | nil => exact .inl ⟨rfl, rfl⟩
  | cons c c' cs cs' hcc _ ih =>
    simp only [List.map_cons, dictGet]
    by_cases hn : c.name = name
    · rw [if_pos hn, if_pos (hcc.name ▸ hn)]
      exact .inr ⟨c, c', rfl, rfl, hcc⟩
    · rw [if_neg hn, if_neg (hcc.name ▸ hn)]
      exact ih

/-- C72: creating an operator from its name and arguments. -/
theorem C72_fromDict (env : Env) (he : env.Sane) (σ' : SetOrder) (v : PyVal) :
    SameCreated (Op.fromDict (Builtin.registry env) v) (Op.fromDict (Builtin.registry { env with σ := σ' }) v) := by
  unfold Op.fromDict
  cases v.getItem "op_name".toList with
  | error e => exact .error e
  | ok name =>
    simp only [Except.bind_ok]
    cases v.getItem "op_kwargs".toList with
    | error e => exact .error e
    | ok kw =>
      simp only [Except.bind_ok]
      unfold Factory.getVal
      split
      · rename_i name
        unfold Factory.get Builtin.registry
        rcases get_twins (twins env he σ') name with ⟨h1, h2⟩ | ⟨c, c', h1, h2, h3⟩
        · rw [h1, h2]
          exact .error _
        · rw [h1, h2]
          simp only [Except.bind_ok]
          split
          · exact twin_call h3 _ _
          · exact .error _
      · exact .error _
      · exact .error _
      · exact .error _

/-- C72: restoring an operator from text. -/
theorem C72_deserialize_op (env : Env) (he : env.Sane) (σ' : SetOrder) (text : Str) :
    SameCreated (Op.deserialize (Builtin.registry env) text)
      (Op.deserialize (Builtin.registry { env with σ := σ' }) text) := by
  unfold Op.deserialize
  cases Json.loads text with
  | error e => exact .error e
  | ok v => exact C72_fromDict env he σ' v

theorem Spec.Pairwise₂.append {α : Type} {R : α → α → Prop} {xs ys xs' ys' : List α} (h : Pairwise₂ R xs ys)
    (h' : Pairwise₂ R xs' ys') : Pairwise₂ R (xs ++ xs') (ys ++ ys') := by
  induction h with
  | nil => exact h'
  | cons x y xs ys hxy _ ih => exact .cons _ _ _ _ hxy ih

theorem Spec.Pairwise₂.length {α : Type} {R : α → α → Prop} {xs ys : List α} (h : Pairwise₂ R xs ys) :
    xs.length = ys.length := by
  induction h with
  | nil => rfl
  | cons x y xs ys hxy _ ih => simp [ih]

theorem Spec.Pairwise₂.getLast? {α : Type} {R : α → α → Prop} {xs ys : List α} (h : Pairwise₂ R xs ys) :
    (xs.getLast? = none ∧ ys.getLast? = none) ∨
      ∃ x y, xs.getLast? = some x ∧ ys.getLast? = some y ∧ R x y := by
  induction h with
  | nil => exact .inl ⟨rfl, rfl⟩
  | cons x y xs ys hxy h ih =>
    right
    rcases ih with ⟨h1, h2⟩ | ⟨a, b, h1, h2, h3⟩
    · rw [List.getLast?_eq_none_iff] at h1 h2
      subst h1; subst h2
      exact ⟨x, y, rfl, rfl, hxy⟩
    · rw [List.getLast?_cons, List.getLast?_cons, h1, h2]
      exact ⟨a, b, rfl, rfl, h3⟩

theorem same_addOp {p p' : Pipe} (h : SamePipe p p') {op op' : Op} (ho : SameOp op op') (ck : Option Str) :
    SamePipe (p.addOp op ck).1 (p'.addOp op' ck).1 ∧ (p.addOp op ck).2 = (p'.addOp op' ck).2 := by
  have hs := h.steps.append (.cons _ _ _ _ ho .nil)
  have push : SamePipe (p.push op ck).1 (p'.push op' ck).1 ∧ (p.push op ck).2 = (p'.push op' ck).2 := by
    unfold Pipe.push
    dsimp only
    cases ck with
    | none => exact ⟨⟨hs, h.checkpoints⟩, rfl⟩
    | some name =>
      dsimp only
      rw [h.checkpoints]
      cases dictGet p'.checkpoints name with
      | some _ => exact ⟨⟨hs, rfl⟩, rfl⟩
      | none =>
        dsimp only
        rw [hs.length]
        exact ⟨⟨hs, rfl⟩, rfl⟩
  unfold Pipe.addOp
  rcases h.steps.getLast? with ⟨h1, h2⟩ | ⟨x, y, h1, h2, h3⟩
  · rw [h1, h2]
    exact push
  · rw [h1, h2]
    dsimp only
    rw [ho.inputType, h3.outputType]
    split
    · exact ⟨h, rfl⟩
    · exact push

/-- C72: adding a step to a pipe has the same outcome whatever the hash seed, and the pipes remain alike. -/
theorem C72_add (env : Env) (he : env.Sane) (σ' : SetOrder) (p p' : Pipe) (h : SamePipe p p') (name : Str)
    (kwargs : Option (List (Str × PyVal))) (ck : Option Str) :
    SamePipe (p.add (Builtin.registry env) name kwargs ck).1
        (p'.add (Builtin.registry { env with σ := σ' }) name kwargs ck).1 ∧
      (p.add (Builtin.registry env) name kwargs ck).2 =
        (p'.add (Builtin.registry { env with σ := σ' }) name kwargs ck).2 := by
  unfold Pipe.add
  have := C72_fromDict env he σ'
    (.dict [("op_name".toList, .str name), ("op_kwargs".toList, .dict (kwargs.getD []))])
  revert this
  generalize Op.fromDict (Builtin.registry env) _ = x
  generalize Op.fromDict (Builtin.registry { env with σ := σ' }) _ = y
  intro hxy
  cases hxy with
  | error e => exact ⟨h, rfl⟩
  | ok op op' ho => exact same_addOp h ho ck

theorem same_alignAll {as bs : List Aligner} (h : Pairwise₂ SameAligner as bs) (ls : List Int) :
    alignAll as ls = alignAll bs ls := by
  induction h generalizing ls with
  | nil => rfl
  | cons a b as bs hab _ ih =>
    unfold alignAll
    rw [hab.forward]
    exact congrArg _ (funext ih)

theorem same_realignLoop {as bs : List Aligner} (h : Pairwise₂ SameAligner as bs) (ls : List Int) :
    realignLoop as ls = realignLoop bs ls := by
  induction h generalizing ls with
  | nil => rfl
  | cons a b as bs hab _ ih =>
    unfold realignLoop
    rw [hab.backward]
    exact congrArg _ (funext ih)

theorem Spec.Pairwise₂.reverse {α : Type} {R : α → α → Prop} {xs ys : List α} (h : Pairwise₂ R xs ys) :
    Pairwise₂ R xs.reverse ys.reverse := by
  induction h with
  | nil => exact .nil
  | cons x y xs ys hxy _ ih =>
    rw [List.reverse_cons, List.reverse_cons]
    exact ih.append (.cons _ _ _ _ hxy .nil)

theorem same_runSteps {ops ops' : List Op} (h : Pairwise₂ SameOp ops ops') (s : Seq) (hs : SeedFreeRun ops s)
    (as bs : List Aligner) (hab : Pairwise₂ SameAligner as bs) (coll : List Seq) :
    SameRun (Pipe.runSteps ops s as coll) (Pipe.runSteps ops' s bs coll) := by
  induction h generalizing s as bs coll with
  | nil =>
    exact .ok _ _ _ _ hab (same_alignAll hab) (same_realignLoop hab.reverse)
  | cons op op' ops ops' ho _ ih =>
    unfold Pipe.runSteps
    have hr := ho.transform s hs.1
    have hn := hs.2
    generalize op.transform s = x at hr hn
    generalize op'.transform s = y at hr
    cases hr with
    | error e => exact .error e
    | ok out a b hab' =>
      exact ih out (hn out a rfl) _ _ (hab.append (.cons _ _ _ _ hab' .nil)) _

/-- C72: pipes built alike give the same outputs, intermediates and labels, whatever the hash seed, unless an empty
list reaches `AddSosEos`. -/
theorem C72_transform_sequence (p p' : Pipe) (h : SamePipe p p') (s : Seq) (hs : SeedFreeRun p.steps s) :
    SameRun (p.transformSequence s) (p'.transformSequence s) :=
  same_runSteps h.steps s hs [] [] .nil [s]

/-- C72: the same for whole data. -/
theorem C72_transform (p p' : Pipe) (h : SamePipe p p') (d : Datum)
    (hs : ∀ u i e, unpackDatum d = .ok (u, i, e) → SeedFreeRun p.steps (.str u)) :
    SameTransformed (p.transform d) (p'.transform d) := by
  unfold Pipe.transform
  cases hu : unpackDatum d with
  | error e => exact .error e
  | ok r =>
    obtain ⟨u, i, e⟩ := r
    simp only [Except.bind_ok]
    have hr := C72_transform_sequence p p' h (.str u) (hs u i e hu)
    generalize p.transformSequence (.str u) = x at hr
    generalize p'.transformSequence (.str u) = y at hr
    cases hr with
    | error e => exact .error e
    | ok out as bs coll hab hf hb =>
      simp only [Except.bind_ok]
      rw [hf e]
      cases alignAll bs e with
      | error e => exact .error e
      | ok l => exact .ok _ _ rfl rfl rfl rfl hab hf hb

/-- C72: pipes built by the same `add` calls, in order, whatever the hash seed. -/
theorem C72_build (env : Env) (he : env.Sane) (σ' : SetOrder) (steps : List (String × List (Str × PyVal)))
    (p p' : Pipe) (h : SamePipe p p') :
    (∃ e, Bert.build (Builtin.registry env) steps p = .error e ∧
      Bert.build (Builtin.registry { env with σ := σ' }) steps p' = .error e) ∨
    ∃ q q', Bert.build (Builtin.registry env) steps p = .ok q ∧
      Bert.build (Builtin.registry { env with σ := σ' }) steps p' = .ok q' ∧ SamePipe q q' := by
  induction steps generalizing p p' with
  | nil => exact .inr ⟨p, p', rfl, rfl, h⟩
  | cons st steps ih =>
    obtain ⟨name, kw⟩ := st
    obtain ⟨h1, h2⟩ := C72_add env he σ' p p' h name.toList (some kw) none
    unfold Bert.build
    dsimp only
    rw [h2]
    cases hx : (p'.add (Builtin.registry { env with σ := σ' }) name.toList (some kw) none).2 with
    | error e => exact .inl ⟨e, rfl, rfl⟩
    | ok _ => exact ih _ _ h1

theorem same_restoreSteps (env : Env) (he : env.Sane) (σ' : SetOrder) (infos : List PyVal) (p p' : Pipe)
    (h : SamePipe p p') :
    (∃ e, Pipe.restoreSteps (Builtin.registry env) infos p = .error e ∧
      Pipe.restoreSteps (Builtin.registry { env with σ := σ' }) infos p' = .error e) ∨
    ∃ q q', Pipe.restoreSteps (Builtin.registry env) infos p = .ok q ∧
      Pipe.restoreSteps (Builtin.registry { env with σ := σ' }) infos p' = .ok q' ∧ SamePipe q q' := by
  induction infos generalizing p p' with
  | nil => exact .inr ⟨p, p', rfl, rfl, h⟩
  | cons info infos ih =>
    unfold Pipe.restoreSteps
    have hc : SameCreated (Pipe.restoreStep (Builtin.registry env) info)
        (Pipe.restoreStep (Builtin.registry { env with σ := σ' }) info) := by
      unfold Pipe.restoreStep
      split
      · exact C72_deserialize_op env he σ' _
      · exact C72_fromDict env he σ' _
      · exact .error _
    generalize Pipe.restoreStep (Builtin.registry env) info = x at hc
    generalize Pipe.restoreStep (Builtin.registry { env with σ := σ' }) info = y at hc
    cases hc with
    | error e => exact .inl ⟨e, rfl, rfl⟩
    | ok op op' ho =>
      obtain ⟨h1, h2⟩ := same_addOp h ho none
      simp only [Except.bind_ok]
      generalize p.addOp op none = x at h1 h2
      generalize p'.addOp op' none = y at h1 h2
      obtain ⟨q, r⟩ := x
      obtain ⟨q', r'⟩ := y
      dsimp only at h1 h2
      subst h2
      cases r with
      | error e => exact .inl ⟨e, rfl, rfl⟩
      | ok _ => exact ih q q' h1

/-- C72: restoring a pipe from text. -/
theorem C72_deserialize_pipe (env : Env) (he : env.Sane) (σ' : SetOrder) (text : Str) :
    (∃ e, Pipe.deserialize (Builtin.registry env) text = .error e ∧
      Pipe.deserialize (Builtin.registry { env with σ := σ' }) text = .error e) ∨
    ∃ q q', Pipe.deserialize (Builtin.registry env) text = .ok q ∧
      Pipe.deserialize (Builtin.registry { env with σ := σ' }) text = .ok q' ∧ SamePipe q q' := by
  unfold Pipe.deserialize
  refine twin_bind (P := SamePipe) _ _ _ fun bundle _ => twin_bind (P := SamePipe) _ _ _ fun steps _ =>
    twin_bind (P := SamePipe) _ _ _ fun infos _ => ?_
  rcases same_restoreSteps env he σ' infos Pipe.empty Pipe.empty ⟨.nil, rfl⟩ with ⟨e, h1, h2⟩ | ⟨q, q', h1, h2, h3⟩
  · rw [h1, h2]
    exact .inl ⟨e, rfl, rfl⟩
  · rw [h1, h2]
    simp only [Except.bind_ok]
    refine twin_bind (P := SamePipe) _ _ _ fun cks _ => twin_bind (P := SamePipe) _ _ _ fun cks _ => ?_
    exact .inr ⟨_, _, rfl, rfl, h3.steps, rfl⟩

theorem seedFreeRun_of_names (ops : List Op) (h : ∀ op ∈ ops, op.cls.name ≠ "AddSosEos".toList) (s : Seq) :
    SeedFreeRun ops s := by
  induction ops generalizing s with
  | nil => trivial
  | cons op ops ih =>
    exact ⟨fun hn => absurd hn (h op (by simp)), fun t _ _ => ih (fun o ho => h o (by simp [ho])) t⟩

/-- C72: a pipe without `AddSosEos`, restored from the same text under two hash seeds, transforms all data alike. -/
theorem C72_no_sos_eos (env : Env) (he : env.Sane) (σ' : SetOrder) (text : Str) (q q' : Pipe)
    (h : Pipe.deserialize (Builtin.registry env) text = .ok q)
    (h' : Pipe.deserialize (Builtin.registry { env with σ := σ' }) text = .ok q')
    (hn : ∀ op ∈ q.steps, op.cls.name ≠ "AddSosEos".toList) (d : Datum) :
    SameTransformed (q.transform d) (q'.transform d) := by
  rcases C72_deserialize_pipe env he σ' text with ⟨e, h1, _⟩ | ⟨r, r', h1, h2, h3⟩
  · cases h1.symm.trans h
  · have e1 := Except.ok.inj (h1.symm.trans h)
    have e2 := Except.ok.inj (h2.symm.trans h')
    subst e1; subst e2
    exact C72_transform _ _ h3 d fun u i e _ => seedFreeRun_of_names _ hn _

/-- C72: the set order is visible inside: undoing "ab" → "" inserts the two letters in either order. -/
example : Str2Str.inverse SetOrder.id "ab".toList ⟨[⟨0, 1, []⟩, ⟨1, 2, []⟩], true⟩ ≠
    Str2Str.inverse SetOrder.rev "ab".toList ⟨[⟨0, 1, []⟩, ⟨1, 2, []⟩], true⟩ := by decide

/-- C72: but not in the labels. -/
example : SameRes (ReplaceAwithB.transform SetOrder.id (Re.alt (Re.lit ['a']) (Re.lit ['b'])).search [] "ab".toList)
    (ReplaceAwithB.transform SetOrder.rev (Re.alt (Re.lit ['a']) (Re.lit ['b'])).search [] "ab".toList) :=
  same_pattern _ _ _ _ _ _ _ (C24_regex_sound _ _) (.inl neutral_except)

/-- C72: the predefined BERT pipe. -/
example : ∃ q q', Bert.basicPipe (Builtin.registry exEnv) = .ok q ∧
    Bert.basicPipe (Builtin.registry { exEnv with σ := SetOrder.rev }) = .ok q' ∧
    SameRun (q.transformSequence (.str "Hello,  World".toList)) (q'.transformSequence (.str "Hello,  World".toList)) := by
  rcases C72_build exEnv exEnv_sane SetOrder.rev Bert.basicSteps Pipe.empty Pipe.empty ⟨.nil, rfl⟩ with
    ⟨e, h1, _⟩ | ⟨q, q', h1, h2, h3⟩
  · obtain ⟨p, hp⟩ : ∃ p, Bert.build (Builtin.registry exEnv) Bert.basicSteps Pipe.empty = .ok p := ⟨_, rfl⟩
    cases h1.symm.trans hp
  · refine ⟨q, q', h1, h2, C72_transform_sequence q q' h3 _ (seedFreeRun_of_names _ ?_ _)⟩
    have hp : Bert.build (Builtin.registry exEnv) Bert.basicSteps Pipe.empty = .ok _ := rfl
    have := Except.ok.inj (h1.symm.trans hp)
    subst this
    decide

end Uttut
