import Verif.Lemmas.Machine
import Verif.Spec.Machine
import Verif.Props.Seeds

/-!
C91: the compiled edit code computes with 32-bit integers; within the limits this changes nothing, past them labels and
texts go wrong.
-/

namespace Uttut

open Spec Machine

/-! ### Classes -/

/-- Classes with the same signature whose objects answer alike within the limits. -/
structure TwinWithin (c c' : OpClass) : Prop where
  name : c.name = c'.name
  inputType : c.inputType = c'.inputType
  outputType : c.outputType = c'.outputType
  params : c.params = c'.params
  defaults : c.defaults = c'.defaults
  ownInit : c.ownInit = c'.ownInit
  init : ∀ vals, (∃ e, c.init vals = .error e ∧ c'.init vals = .error e) ∨
    ∃ r r', c.init vals = .ok r ∧ c'.init vals = .ok r' ∧
      ∀ s, s.length ≤ 2 ^ 31 → (∀ out a, r' s = .ok (out, a) → out.length < 2 ^ 32 ∨ out.type ≠ c'.outputType) →
        SameRes (r s) (r' s)

theorem twinWithin_call {c c' : OpClass} (h : TwinWithin c c') (args : List PyVal) (kwargs : List (Str × PyVal)) :
    SameMade SameWithin (c.call args kwargs) (c'.call args kwargs) := by
  have hb : c'.bindArgs args kwargs = c.bindArgs args kwargs := by
    have : c'.bindParam kwargs = c.bindParam kwargs := by
      funext p
      unfold OpClass.bindParam OpClass.default?
      rw [h.params, h.defaults]
    unfold OpClass.bindArgs
    rw [this, h.params]
  have hcap : c'.capture args kwargs = c.capture args kwargs := by
    unfold OpClass.capture OpClass.argspec
    rw [h.params, h.defaults, h.ownInit]
  unfold OpClass.call
  rw [hb, hcap]
  cases c.bindArgs args kwargs with
  | error e => exact .error e
  | ok vals =>
    simp only [Except.bind_ok]
    rcases h.init vals with ⟨e, h1, h2⟩ | ⟨r, r', h1, h2, h3⟩
    · rw [h1, h2]
      exact .error e
    · rw [h1, h2]
      refine .ok _ _ ⟨h.name, h.inputType, h.outputType, rfl, fun s hs => ?_⟩
      have hout := hs.output
      unfold Op.transform at hout ⊢
      dsimp only at hout ⊢
      rw [h.inputType, h.outputType]
      split
      · exact .error _
      · rename_i htype
        rw [if_neg htype] at hout
        have := h3 s hs.input fun out a ho => by
          rw [ho] at hout
          simp only [Except.bind_ok] at hout
          by_cases hx : out.type ≠ c'.outputType
          · exact .inr hx
          · rw [if_neg hx] at hout
            exact .inl (hout _ _ rfl)
        revert this
        generalize r s = x
        generalize r' s = y
        intro hxy
        cases hxy with
        | error e => exact .error e
        | ok out a b hab =>
          simp only [Except.bind_ok]
          split
          · exact .error _
          · exact .ok _ _ _ hab

theorem within_strOp {f g : Str → Res (Str × Aligner)} (h : ∀ s : Str, s.length ≤ 2 ^ 31 → Below (g s) → SameRes (f s) (g s))
    (s : Seq) (hs : s.length ≤ 2 ^ 31)
    (hb : ∀ out a, strOp g s = .ok (out, a) → out.length < 2 ^ 32 ∨ out.type ≠ .str) :
    SameRes (strOp f s) (strOp g s) := by
  cases s with
  | list l => exact .error _
  | str s =>
    have := h s hs fun out a ho => by
      have := hb (.str out) a (by unfold strOp; dsimp only; rw [ho]; rfl)
      exact this.resolve_right (by simp [Seq.type])
    unfold strOp
    dsimp only
    generalize f s = x at this
    generalize g s = y at this
    cases this with
    | error e => exact .error e
    | ok out a b hab => exact .ok _ _ _ hab

theorem within_tokOp {f g : Str → Res (List Str × Aligner)}
    (h : ∀ s : Str, s.length ≤ 2 ^ 31 → Below (g s) → SameRes (f s) (g s)) (s : Seq) (hs : s.length ≤ 2 ^ 31)
    (hb : ∀ out a, tokOp g s = .ok (out, a) → out.length < 2 ^ 32 ∨ out.type ≠ .list) :
    SameRes (tokOp f s) (tokOp g s) := by
  cases s with
  | list l => exact .error _
  | str s =>
    have := h s hs fun out a ho => by
      have := hb (.list (out.map Tok.str)) a (by unfold tokOp; dsimp only; rw [ho]; rfl)
      have := this.resolve_right (by simp [Seq.type])
      simpa [Seq.length] using this
    unfold tokOp
    dsimp only
    generalize f s = x at this
    generalize g s = y at this
    cases this with
    | error e => exact .error e
    | ok out a b hab => exact .ok _ _ _ hab

theorem within_lstOp {f g : List Tok → Res (List Tok × Aligner)}
    (h : ∀ l : List Tok, l.length ≤ 2 ^ 31 → Below (g l) → SameRes (f l) (g l)) (s : Seq) (hs : s.length ≤ 2 ^ 31)
    (hb : ∀ out a, lstOp g s = .ok (out, a) → out.length < 2 ^ 32 ∨ out.type ≠ .list) :
    SameRes (lstOp f s) (lstOp g s) := by
  cases s with
  | str l => exact .error _
  | list l =>
    have := h l hs fun out a ho => by
      have := hb (.list out) a (by unfold lstOp; dsimp only; rw [ho]; rfl)
      exact this.resolve_right (by simp [Seq.type])
    unfold lstOp
    dsimp only
    generalize f l = x at this
    generalize g l = y at this
    cases this with
    | error e => exact .error e
    | ok out a b hab => exact .ok _ _ _ hab

theorem within_simple {name : String} {i o : SeqType} {r r' : Seq → Res (Seq × Aligner)}
    (h : ∀ s, s.length ≤ 2 ^ 31 → (∀ out a, r' s = .ok (out, a) → out.length < 2 ^ 32 ∨ out.type ≠ o) →
      SameRes (r s) (r' s)) : TwinWithin (Builtin.simple name i o r) (Builtin.simple name i o r') :=
  ⟨rfl, rfl, rfl, rfl, rfl, rfl, fun _ => .inr ⟨r, r', rfl, rfl, h⟩⟩

theorem noStr_same (env : Env) (m : Matcher) (s : Str) (hm : SoundMatcher m s) (hs : s.length ≤ 2 ^ 31)
    (hb : Below (Builtin.replaceNoStr env m s)) :
    SameRes (Machine.replaceNoStr env m s) (Builtin.replaceNoStr env m s) := by
  unfold Machine.replaceNoStr Builtin.replaceNoStr at *
  split
  · rename_i hc
    unfold ReplaceAwithB.transform Uttut.patternTransform patternTransformFuel patternGroup
    rw [searchLoop_same hm _ (by omega)]
    cases he : Uttut.searchLoop m (fun _ _ _ => [' ']) s (s.length + 1) 0 ReplacementGroup.empty with
    | none => exact .error _
    | some g =>
      simp only [Option.map_some, Except.bind_ok]
      obtain ⟨h1, h2⟩ := searchLoop_within hm (within_empty _) he
      have hx : ∀ (x : Res (Str × Aligner)), (∃ e, g.done env.σ = .error e ∧ x = .error e) ∨
          ((∃ g', g.done env.σ = .ok g') ∧ ∃ r, x = .ok r) →
          SameRes (α := Str) (do let _ ← g.done env.σ; .error .typeError)
            (do let _ ← x
                .error .typeError) := by
        rintro x (⟨e, h1, rfl⟩ | ⟨⟨g', h1⟩, ⟨out, a⟩, rfl⟩)
        · rw [h1]
          exact .error e
        · rw [h1]
          exact .error _
      refine hx _ ?_
      cases hd : g.done env.σ with
      | error e => exact .inl ⟨e, rfl, rfl⟩
      | ok g' =>
        refine .inr ⟨⟨g', rfl⟩, ?_⟩
        obtain ⟨h1, h2, h3, h4⟩ := done_within env.σ h1 hd
        obtain ⟨rs, d⟩ := g'
        simp only at h1 h2 h3 h4
        subst h1
        have hfit : Fits s.length 0 rs := by
          rw [fits_iff]
          exact ⟨by omega, fun r hr => ⟨by omega, (h2 r hr).1, (h2 r hr).2⟩, h3⟩
        have happ := lstApply_pieces (cut s 0 rs)
        rw [srcOf_cut s 0 _ hfit, groupOf_cut s 0 rs hfit] at happ
        simp only [List.drop_zero] at happ
        simp only [Except.bind_ok]
        have happ' : Str2Str.apply s ⟨rs, true⟩ = .ok (dstOf (cut s 0 rs)) := happ
        rw [happ']
        exact ⟨_, rfl⟩
  · rename_i hc
    have hsame := pattern_same env.σ m [' '] Transduce.getMostCommonExceptNotEntity
      Transduce.getMostCommonExceptNotEntity s hm hs
    have : (do let (out, a) ← ReplaceAwithB.transform env.σ m [' '] s
               if s.length > 0 ∧ (m s 0).isSome then (.error .typeError : Res (Str × Aligner)) else return (out, a)) =
        ReplaceAwithB.transform env.σ m [' '] s := by
      cases ReplaceAwithB.transform env.σ m [' '] s with
      | error e => rfl
      | ok r =>
        simp only [Except.bind_ok]
        rw [if_neg hc]
        rfl
    rw [this] at hb
    have h2 : (do let (out, a) ← ReplaceAwithB.transform env.σ m [' '] s
                  return (out, a)) = ReplaceAwithB.transform env.σ m [' '] s := by
      cases ReplaceAwithB.transform env.σ m [' '] s <;> rfl
    rw [h2]
    exact hsame hb

theorem perToken_same (σ : SetOrder) (nv : Tok → Res (Option (List Tok))) (l : List Tok) (hl : l.length ≤ 2 ^ 31)
    (hb : Below (Uttut.tokenwiseTransform σ nv l fun _ n => Aligner.null l.length n)) :
    SameRes (Machine.perToken σ nv l) (Uttut.tokenwiseTransform σ nv l fun _ n => Aligner.null l.length n) :=
  tokenwise_same σ nv l hl _ _ (fun _ _ _ _ => .refl _) hb

theorem pad_same (σ : SetOrder) (maxlen : Int) (pad : Tok) (l : List Tok) (hl : l.length ≤ 2 ^ 31)
    (hb : Below (Pad.transform σ maxlen pad l)) : SameRes (Machine.padTo σ maxlen pad l) (Pad.transform σ maxlen pad l) := by
  unfold Machine.padTo Pad.transform Pad.group at *
  dsimp only at *
  split_ifs at * with h1 h2
  · exact group_same σ [] l hl (by simp) (by simp) hb
  · exact group_same σ [(maxlen, (l.length : Int), [])] l hl (by simp) (by simp) hb
  · exact group_same σ [((l.length : Int), (l.length : Int), List.replicate (maxlen - (l.length : Int)).toNat pad)] l hl
      (by simp) (by simp) hb

theorem machine_twins (env : Env) (he : env.Sane) : Pairwise₂ TwinWithin (Machine.all env) (Builtin.all env) := by
  have hre : ∀ (r : Re) s, SoundMatcher r.search s := C24_regex_sound
  have chars : ∀ (valid : Char → Bool) (s : Str), s.length ≤ 2 ^ 31 → Below (AddWhitespaceAroundChar.transform env.σ valid s) →
      SameRes (Machine.aroundChar env.σ valid s) (AddWhitespaceAroundChar.transform env.σ valid s) := fun valid s hs hb =>
    charwise_same env.σ _ s s rfl hs _ _ hb
  have pats : ∀ (r : Re) (token : Str) (f b : Transducer) (s : Str), s.length ≤ 2 ^ 31 →
      Below (Uttut.patternTransform env.σ r.search token f b s) →
      SameRes (Machine.patternTransform env.σ r.search token f b s) (Uttut.patternTransform env.σ r.search token f b s) :=
    fun r token f b s hs hb => pattern_same env.σ _ token f b s (hre r s) hs hb
  have toks := fun f b s ts hs hb => tokenizer_same env.σ f b s ts hs hb
  unfold Machine.all Builtin.all Builtin.concrete
  dsimp only
  refine .cons _ _ _ _ ⟨rfl, rfl, rfl, rfl, rfl, rfl, fun _ => .inl ⟨_, rfl, rfl⟩⟩ ?_
  refine .cons _ _ _ _ (within_simple (within_strOp fun s hs hb => charwise_same env.σ _ s s rfl hs _ _ hb)) ?_
  refine .cons _ _ _ _ (within_simple fun s _ _ => .refl _) ?_
  refine .cons _ _ _ _ (within_simple fun s _ _ => .refl _) ?_
  refine .cons _ _ _ _ (within_simple (within_strOp fun s hs _ => lowercase_same env.σ s hs)) ?_
  refine .cons _ _ _ _ (within_simple (within_strOp (chars _))) ?_
  refine .cons _ _ _ _ (within_simple (within_strOp (chars _))) ?_
  refine .cons _ _ _ _ ⟨rfl, rfl, rfl, rfl, rfl, rfl, fun vals => ?_⟩ ?_
  · unfold Builtin.aroundWord
    dsimp only
    unfold Builtin.aroundWordInit Machine.aroundWordInit
    rcases vals with _ | ⟨words, _ | ⟨shortest, _ | ⟨x, vals⟩⟩⟩
    · exact .inl ⟨_, rfl, rfl⟩
    · exact .inl ⟨_, rfl, rfl⟩
    · refine twin_bind _ _ _ fun t ht => ?_
      obtain ⟨ws, hw⟩ := userWords_ok ht
      exact .inr ⟨_, _, rfl, rfl, within_strOp fun s hs hb => words_same env.σ ws t hw _ s hs hb⟩
    · exact .inl ⟨_, rfl, rfl⟩
  refine .cons _ _ _ _ (within_simple (within_strOp fun s hs hb => ?_)) ?_
  · unfold Machine.stripAccentToken StripAccentToken.transform at *
    dsimp only at *
    split_ifs at * with h1
    · exact charwise_same env.σ _ _ s (by simp [h1]) hs _ _ hb
    · exact .error _
  refine .cons _ _ _ _ (within_simple (within_strOp fun s hs hb => charwise_same env.σ _ s s rfl hs _ _ hb)) ?_
  refine .cons _ _ _ _ (within_simple (within_strOp (pats _ _ _ _))) ?_
  refine .cons _ _ _ _ (within_simple (within_strOp (pats _ _ _ _))) ?_
  refine .cons _ _ _ _ (within_simple (within_strOp (pats _ _ _ _))) ?_
  refine .cons _ _ _ _ (within_simple (within_strOp (pats _ _ _ _))) ?_
  refine .cons _ _ _ _ (within_simple (within_strOp (pats _ _ _ _))) ?_
  refine .cons _ _ _ _ (within_simple (within_strOp (pats _ _ _ _))) ?_
  refine .cons _ _ _ _ (within_simple (within_strOp (pats _ _ _ _))) ?_
  refine .cons _ _ _ _ (within_simple (within_strOp (pats _ _ _ _))) ?_
  refine .cons _ _ _ _ ⟨rfl, rfl, rfl, rfl, rfl, rfl, fun vals => ?_⟩ ?_
  · unfold Builtin.replace
    dsimp only
    unfold Builtin.replaceInit Machine.replaceInit
    rcases vals with _ | ⟨a, _ | ⟨b, _ | ⟨x, vals⟩⟩⟩
    · exact .inl ⟨_, rfl, rfl⟩
    · exact .inl ⟨_, rfl, rfl⟩
    · refine twin_bind _ _ _ fun p _ => ?_
      cases hm : env.compile p with
      | none => exact .inl ⟨_, rfl, rfl⟩
      | some m =>
        dsimp only
        cases b
        case str new =>
          exact .inr ⟨_, _, rfl, rfl, within_strOp fun s hs hb => pattern_same env.σ m _ _ _ s (he.sound p m hm s) hs hb⟩
        all_goals exact .inr ⟨_, _, rfl, rfl, within_strOp fun s hs hb => noStr_same env m s (he.sound p m hm s) hs hb⟩
    · exact .inl ⟨_, rfl, rfl⟩
  refine .cons _ _ _ _ (within_simple (within_tokOp fun s => toks _ _ s _)) ?_
  refine .cons _ _ _ _ (within_simple (within_tokOp fun s => toks _ _ s _)) ?_
  refine .cons _ _ _ _ (within_simple (within_tokOp fun s => toks _ _ s _)) ?_
  refine .cons _ _ _ _ (within_simple (within_tokOp fun s => toks _ _ s _)) ?_
  refine .cons _ _ _ _ ⟨rfl, rfl, rfl, rfl, rfl, rfl, fun vals => ?_⟩ ?_
  · unfold Builtin.customTok
    dsimp only
    unfold Builtin.customTokInit Machine.customTokInit
    rcases vals with _ | ⟨words, _ | ⟨shortest, _ | ⟨x, vals⟩⟩⟩
    · exact .inl ⟨_, rfl, rfl⟩
    · exact .inl ⟨_, rfl, rfl⟩
    · refine twin_bind _ _ _ fun t _ => ?_
      refine .inr ⟨_, _, rfl, rfl, within_tokOp fun s hs hb => ?_⟩
      unfold Machine.customTokenizer CustomWordTokenizer.transform at *
      cases ht : CustomWordTokenizer.tokenize t _ s with
      | none => exact .error _
      | some ts =>
        rw [ht] at hb
        exact toks _ _ s _ hs hb
    · exact .inl ⟨_, rfl, rfl⟩
  refine .cons _ _ _ _ ⟨rfl, rfl, rfl, rfl, rfl, rfl, fun vals => ?_⟩ ?_
  · unfold Builtin.sosEos
    dsimp only
    unfold Builtin.sosEosInit Machine.sosEosInit
    rcases vals with _ | ⟨v, _ | ⟨w, _ | ⟨x, vals⟩⟩⟩
    · exact .inl ⟨_, rfl, rfl⟩
    · exact .inl ⟨_, rfl, rfl⟩
    · refine twin_bind _ _ _ fun a _ => twin_bind _ _ _ fun b _ => ?_
      exact .inr ⟨_, _, rfl, rfl, within_lstOp fun l hl hb =>
        group_same env.σ [(0, 0, [a]), ((l.length : Int), (l.length : Int), [b])] l hl (by simp) (by simp) hb⟩
    · exact .inl ⟨_, rfl, rfl⟩
  refine .cons _ _ _ _ ⟨rfl, rfl, rfl, rfl, rfl, rfl, fun vals => ?_⟩ ?_
  · unfold Builtin.pad
    dsimp only
    unfold Builtin.padInit Machine.padInit
    rcases vals with _ | ⟨n, _ | ⟨t, _ | ⟨x, vals⟩⟩⟩
    · exact .inl ⟨_, rfl, rfl⟩
    · exact .inl ⟨_, rfl, rfl⟩
    · refine twin_bind _ _ _ fun b _ => ?_
      refine .inr ⟨_, _, rfl, rfl, within_lstOp fun l hl hb => ?_⟩
      cases hn : n.asInt with
      | error e => exact .error e
      | ok n =>
        rw [hn] at hb
        exact pad_same env.σ _ _ l hl hb
    · exact .inl ⟨_, rfl, rfl⟩
  refine .cons _ _ _ _ ⟨rfl, rfl, rfl, rfl, rfl, rfl, fun vals => ?_⟩ ?_
  · unfold Builtin.token2index
    dsimp only
    unfold Builtin.token2indexInit Machine.token2indexInit
    rcases vals with _ | ⟨d, _ | ⟨unk, _ | ⟨x, vals⟩⟩⟩
    · exact .inl ⟨_, rfl, rfl⟩
    · exact .inl ⟨_, rfl, rfl⟩
    · refine twin_bind _ _ _ fun d _ => ?_
      cases unk
      case str unk =>
        refine twin_bind _ _ _ fun _ _ => ?_
        exact .inr ⟨_, _, rfl, rfl, within_lstOp (perToken_same env.σ _)⟩
      all_goals
        refine twin_bind _ _ _ fun _ _ => ?_
        split <;> exact .inl ⟨_, rfl, rfl⟩
    · exact .inl ⟨_, rfl, rfl⟩
  refine .cons _ _ _ _ ⟨rfl, rfl, rfl, rfl, rfl, rfl, fun vals => ?_⟩ ?_
  · unfold Builtin.spanSubwords
    dsimp only
    unfold Builtin.spanSubwordsInit Machine.spanSubwordsInit
    rcases vals with _ | ⟨vocab, _ | ⟨unk, _ | ⟨n, _ | ⟨x, vals⟩⟩⟩⟩
    · exact .inl ⟨_, rfl, rfl⟩
    · exact .inl ⟨_, rfl, rfl⟩
    · exact .inl ⟨_, rfl, rfl⟩
    · refine twin_bind _ _ _ fun unk _ => ?_
      have hsame : ∀ has n (l : List Tok), l.length ≤ 2 ^ 31 → Below (SpanSubwords.transform env.σ has unk n l) →
          SameRes (Machine.subwords env.σ has unk n l) (SpanSubwords.transform env.σ has unk n l) :=
        fun has n l hl hb => tokenwise_same env.σ _ l hl _ _ (lstAligner_same env.σ l hl _ _) hb
      refine .inr ⟨_, _, rfl, rfl, within_lstOp fun l hl hb => ?_⟩
      unfold Builtin.spanSubwordsRun Machine.spanSubwordsRun at *
      cases hn : n.asInt with
      | error e =>
        simp only [hn] at hb
        dsimp only
        split_ifs at hb ⊢ with h
        · exact hsame _ _ _ hl hb
        · exact .error _
      | ok n =>
        cases hv : vocab.has with
        | ok has =>
          simp only [hn, hv] at hb
          exact hsame _ _ _ hl hb
        | error e =>
          simp only [hn, hv] at hb
          dsimp only
          split_ifs at hb ⊢ with h
          · exact .error _
          · exact hsame _ _ _ hl hb
    · exact .inl ⟨_, rfl, rfl⟩
  refine .cons _ _ _ _ ⟨rfl, rfl, rfl, rfl, rfl, rfl, fun vals => ?_⟩ ?_
  · unfold Builtin.token2indexHash
    dsimp only
    unfold Builtin.token2indexHashInit Machine.token2indexHashInit
    rcases vals with _ | ⟨d, _ | ⟨x, vals⟩⟩
    · exact .inl ⟨_, rfl, rfl⟩
    · refine twin_bind _ _ _ fun d _ => twin_bind _ _ _ fun _ _ => ?_
      exact .inr ⟨_, _, rfl, rfl, within_lstOp (perToken_same env.σ _)⟩
    · exact .inl ⟨_, rfl, rfl⟩
  refine .cons _ _ _ _ ⟨rfl, rfl, rfl, rfl, rfl, rfl, fun vals => ?_⟩ ?_
  · unfold Builtin.pureNum
    dsimp only
    unfold Builtin.pureNumInit Machine.pureNumInit
    rcases vals with _ | ⟨t, _ | ⟨x, vals⟩⟩
    · exact .inl ⟨_, rfl, rfl⟩
    · cases t
      case none => exact .inr ⟨_, _, rfl, rfl, within_lstOp (perToken_same env.σ _)⟩
      all_goals
        refine twin_bind _ _ _ fun d _ => ?_
        exact .inr ⟨_, _, rfl, rfl, within_lstOp (perToken_same env.σ _)⟩
    · cases t <;> exact .inl ⟨_, rfl, rfl⟩
  refine .cons _ _ _ _ ⟨rfl, rfl, rfl, rfl, rfl, rfl, fun vals => ?_⟩ .nil
  unfold Builtin.endTok
  dsimp only
  unfold Builtin.endTokInit Machine.endTokInit
  rcases vals with _ | ⟨t, _ | ⟨x, vals⟩⟩
  · exact .inl ⟨_, rfl, rfl⟩
  · cases t
    case none => exact .inl ⟨_, rfl, rfl⟩
    all_goals
      refine twin_bind _ _ _ fun d _ => twin_bind _ _ _ fun b _ => ?_
      exact .inr ⟨_, _, rfl, rfl, within_lstOp fun l hl hb =>
        group_same env.σ [((l.length : Int), (l.length : Int), [.str b])] l hl (by simp) (by simp) hb⟩
  · cases t <;> exact .inl ⟨_, rfl, rfl⟩

/-! ### C91: within the limits -/

/-- C91: calling an operator class with the same arguments raises the same exception or gives operators that answer alike to all
uses within the limits. -/
theorem C91_operator (env : Env) (he : env.Sane) (i : Nat) (c c' : OpClass)
    (hc : (Machine.all env)[i]? = some c) (hc' : (Builtin.all env)[i]? = some c')
    (args : List PyVal) (kwargs : List (Str × PyVal)) :
    SameMade SameWithin (c.call args kwargs) (c'.call args kwargs) :=
  twinWithin_call ((machine_twins env he).getElem? i hc hc') args kwargs

theorem get_twinsWithin {cs cs' : List OpClass} (h : Pairwise₂ TwinWithin cs cs') (name : Str) :
    (dictGet (cs.map fun c => (c.name, c)) name = none ∧ dictGet (cs'.map fun c => (c.name, c)) name = none) ∨
    ∃ c c', dictGet (cs.map fun c => (c.name, c)) name = some c ∧
      dictGet (cs'.map fun c => (c.name, c)) name = some c' ∧ TwinWithin c c' := by
  induction h with
  | nil => exact .inl ⟨rfl, rfl⟩
  | cons c c' cs cs' hcc _ ih =>
    simp only [List.map_cons, dictGet]
    by_cases hn : c.name = name
    · rw [if_pos hn, if_pos (hcc.name ▸ hn)]
      exact .inr ⟨c, c', rfl, rfl, hcc⟩
    · rw [if_neg hn, if_neg (hcc.name ▸ hn)]
      exact ih

theorem fromDict_within {cs cs' : List OpClass} (h : Pairwise₂ TwinWithin cs cs') (v : PyVal) :
    SameMade SameWithin (Op.fromDict (cs.map fun c => (c.name, c)) v) (Op.fromDict (cs'.map fun c => (c.name, c)) v) := by
  unfold Op.fromDict
  cases v.getItem "op_name".toList with
  | error e => exact .error e
  | ok name =>
    simp only [Except.bind_ok]
    cases v.getItem "op_kwargs".toList with
    | error e => exact .error e
    | ok kw =>
      simp only [Except.bind_ok]
      unfold Factory.getVal
      split
      · rename_i name
        unfold Factory.get
        rcases get_twinsWithin h name with ⟨h1, h2⟩ | ⟨c, c', h1, h2, h3⟩
        · rw [h1, h2]
          exact .error _
        · rw [h1, h2]
          simp only [Except.bind_ok]
          split
          · exact twinWithin_call h3 _ _
          · exact .error _
      · exact .error _
      · exact .error _
      · exact .error _

/-- C91: creating an operator from its name and arguments. -/
theorem C91_fromDict (env : Env) (he : env.Sane) (v : PyVal) :
    SameMade SameWithin (Op.fromDict (Machine.registry env) v) (Op.fromDict (Builtin.registry env) v) :=
  fromDict_within (machine_twins env he) v

/-- C91: restoring an operator from text. -/
theorem C91_deserialize_op (env : Env) (he : env.Sane) (text : Str) :
    SameMade SameWithin (Op.deserialize (Machine.registry env) text)
      (Op.deserialize (Builtin.registry env) text) := by
  unfold Op.deserialize
  cases Json.loads text with
  | error e => exact .error e
  | ok v => exact C91_fromDict env he v

theorem within_addOp {p p' : Pipe} (h : SamePipeWithin p p') {op op' : Op} (ho : SameWithin op op') (ck : Option Str) :
    SamePipeWithin (p.addOp op ck).1 (p'.addOp op' ck).1 ∧ (p.addOp op ck).2 = (p'.addOp op' ck).2 := by
  have hs := h.steps.append (.cons _ _ _ _ ho .nil)
  have push : SamePipeWithin (p.push op ck).1 (p'.push op' ck).1 ∧ (p.push op ck).2 = (p'.push op' ck).2 := by
    unfold Pipe.push
    dsimp only
    cases ck with
    | none => exact ⟨⟨hs, h.checkpoints⟩, rfl⟩
    | some name =>
      dsimp only
      rw [h.checkpoints]
      cases dictGet p'.checkpoints name with
      | some _ => exact ⟨⟨hs, rfl⟩, rfl⟩
      | none =>
        dsimp only
        rw [hs.length]
        exact ⟨⟨hs, rfl⟩, rfl⟩
  unfold Pipe.addOp
  rcases h.steps.getLast? with ⟨h1, h2⟩ | ⟨x, y, h1, h2, h3⟩
  · rw [h1, h2]
    exact push
  · rw [h1, h2]
    dsimp only
    rw [ho.inputType, h3.outputType]
    split
    · exact ⟨h, rfl⟩
    · exact push

theorem add_within {cs cs' : List OpClass} (hcs : Pairwise₂ TwinWithin cs cs') (p p' : Pipe) (h : SamePipeWithin p p')
    (name : Str) (kwargs : Option (List (Str × PyVal))) (ck : Option Str) :
    SamePipeWithin (p.add (cs.map fun c => (c.name, c)) name kwargs ck).1
        (p'.add (cs'.map fun c => (c.name, c)) name kwargs ck).1 ∧
      (p.add (cs.map fun c => (c.name, c)) name kwargs ck).2 = (p'.add (cs'.map fun c => (c.name, c)) name kwargs ck).2 := by
  unfold Pipe.add
  have := fromDict_within hcs (.dict [("op_name".toList, .str name), ("op_kwargs".toList, .dict (kwargs.getD []))])
  revert this
  generalize Op.fromDict (cs.map fun c => (c.name, c)) _ = x
  generalize Op.fromDict (cs'.map fun c => (c.name, c)) _ = y
  intro hxy
  cases hxy with
  | error e => exact ⟨h, rfl⟩
  | ok op op' ho => exact within_addOp h ho ck

/-- C91: adding a step has the same outcome, and the pipes remain alike. -/
theorem C91_add (env : Env) (he : env.Sane) (p p' : Pipe) (h : SamePipeWithin p p') (name : Str)
    (kwargs : Option (List (Str × PyVal))) (ck : Option Str) :
    SamePipeWithin (p.add (Machine.registry env) name kwargs ck).1 (p'.add (Builtin.registry env) name kwargs ck).1 ∧
      (p.add (Machine.registry env) name kwargs ck).2 = (p'.add (Builtin.registry env) name kwargs ck).2 :=
  add_within (machine_twins env he) p p' h name kwargs ck

theorem within_restoreSteps (env : Env) (he : env.Sane) (infos : List PyVal) (p p' : Pipe) (h : SamePipeWithin p p') :
    SameMade SamePipeWithin (Pipe.restoreSteps (Machine.registry env) infos p)
      (Pipe.restoreSteps (Builtin.registry env) infos p') := by
  induction infos generalizing p p' with
  | nil => exact .ok _ _ h
  | cons info infos ih =>
    unfold Pipe.restoreSteps
    have hc : SameMade SameWithin (Pipe.restoreStep (Machine.registry env) info)
        (Pipe.restoreStep (Builtin.registry env) info) := by
      unfold Pipe.restoreStep
      split
      · exact C91_deserialize_op env he _
      · exact C91_fromDict env he _
      · exact .error _
    generalize Pipe.restoreStep (Machine.registry env) info = x at hc
    generalize Pipe.restoreStep (Builtin.registry env) info = y at hc
    cases hc with
    | error e => exact .error e
    | ok op op' ho =>
      obtain ⟨h1, h2⟩ := within_addOp h ho none
      simp only [Except.bind_ok]
      generalize p.addOp op none = x at h1 h2
      generalize p'.addOp op' none = y at h1 h2
      obtain ⟨q, r⟩ := x
      obtain ⟨q', r'⟩ := y
      dsimp only at h1 h2
      subst h2
      cases r with
      | error e => exact .error e
      | ok _ => exact ih q q' h1

/-- C91: restoring a pipe from text. -/
theorem C91_deserialize_pipe (env : Env) (he : env.Sane) (text : Str) :
    SameMade SamePipeWithin (Pipe.deserialize (Machine.registry env) text)
      (Pipe.deserialize (Builtin.registry env) text) := by
  have key : ∀ {α : Type} (x : Res α) (k k' : α → Res Pipe),
      (∀ a, SameMade SamePipeWithin (k a) (k' a)) → SameMade SamePipeWithin (x >>= k) (x >>= k') := by
    intro α x k k' h
    cases x with
    | error e => exact .error e
    | ok a => exact h a
  unfold Pipe.deserialize
  refine key _ _ _ fun bundle => key _ _ _ fun steps => key _ _ _ fun infos => ?_
  have := within_restoreSteps env he infos Pipe.empty Pipe.empty ⟨.nil, rfl⟩
  generalize Pipe.restoreSteps (Machine.registry env) infos Pipe.empty = x at this
  generalize Pipe.restoreSteps (Builtin.registry env) infos Pipe.empty = y at this
  cases this with
  | error e => exact .error e
  | ok q q' h3 =>
    simp only [Except.bind_ok]
    refine key _ _ _ fun cks => key _ _ _ fun cks => ?_
    exact .ok _ _ ⟨h3.steps, rfl⟩

theorem within_runSteps {ops ops' : List Op} (h : Pairwise₂ SameWithin ops ops') (s : Seq) (hs : SmallRun ops' s)
    (as bs : List Aligner) (hab : Pairwise₂ SameAligner as bs) (coll : List Seq) :
    SameRun (Pipe.runSteps ops s as coll) (Pipe.runSteps ops' s bs coll) := by
  induction h generalizing s as bs coll with
  | nil =>
    exact .ok _ _ _ _ hab (same_alignAll hab) (same_realignLoop hab.reverse)
  | cons op op' ops ops' ho _ ih =>
    unfold Pipe.runSteps
    have hr := ho.transform s hs.1
    have hn := hs.2
    generalize op.transform s = x at hr
    generalize op'.transform s = y at hr hn
    cases hr with
    | error e => exact .error e
    | ok out a b hab' =>
      exact ih out (hn out b rfl) _ _ (hab.append (.cons _ _ _ _ hab' .nil)) _

/-- C91: pipes built alike give the same outputs, intermediates and label alignments if no sequence on the way passes the
limits. -/
theorem C91_transform_sequence (p p' : Pipe) (h : SamePipeWithin p p') (s : Seq) (hs : SmallRun p'.steps s) :
    SameRun (p.transformSequence s) (p'.transformSequence s) :=
  within_runSteps h.steps s hs [] [] .nil [s]

/-- C91: the same for whole data. -/
theorem C91_transform (p p' : Pipe) (h : SamePipeWithin p p') (d : Datum)
    (hs : ∀ u i e, unpackDatum d = .ok (u, i, e) → SmallRun p'.steps (.str u)) :
    SameTransformed (p.transform d) (p'.transform d) := by
  unfold Pipe.transform
  cases hu : unpackDatum d with
  | error e => exact .error e
  | ok r =>
    obtain ⟨u, i, e⟩ := r
    simp only [Except.bind_ok]
    have hr := C91_transform_sequence p p' h (.str u) (hs u i e hu)
    generalize p.transformSequence (.str u) = x at hr
    generalize p'.transformSequence (.str u) = y at hr
    cases hr with
    | error e => exact .error e
    | ok out as bs coll hab hf hb =>
      simp only [Except.bind_ok]
      rw [hf e]
      cases alignAll bs e with
      | error e => exact .error e
      | ok l => exact .ok _ _ rfl rfl rfl rfl hab hf hb

/-- C91: an edit by itself: at most 2^31 replacements, and fewer than 2^32 elements before and after. The edited
sequence, the inverse edit and the labels along the edit are the exact ones. -/
theorem C91_edit {β : Type} [DecidableEq β] [NewValue (List β)] (σ : SetOrder) (l out : List β)
    (ts : List (Int × Int × List β)) (g : ReplacementGroup (List β)) (hg : ReplacementGroup.addAll σ ts = .ok g)
    (hts : ∀ t ∈ ts, t.2.1 ≤ l.length) (hn : ts.length ≤ 2 ^ 31) (hl : l.length < 2 ^ 32)
    (ho : Lst2Lst.apply l g = .ok out) (hout : out.length < 2 ^ 32) :
    Machine.apply l g = .ok out ∧
      Machine.inverse σ l g = editInverse σ l g ∧
      ∀ (labels : List Int) (f : Transducer), labels.length = l.length →
        Machine.propagate labels g f = Uttut.propagate labels g f := by
  unfold ReplacementGroup.addAll at hg
  obtain ⟨g0, h0, hd⟩ := bind_eq_ok hg
  obtain ⟨w1, w2⟩ := foldlM_within ts _ _ hts (within_empty _) h0
  simp only [ReplacementGroup.empty, List.length_nil] at w2
  obtain ⟨h1, h2, h3, h4⟩ := done_within σ w1 hd
  obtain ⟨rs, d⟩ := g
  simp only at h1 h2 h3 h4
  subst h1
  have hfit : Fits l.length 0 rs := by
    rw [fits_iff]
    exact ⟨by omega, fun r hr => ⟨by omega, (h2 r hr).1, (h2 r hr).2⟩, h3⟩
  have happ := lstApply_pieces (cut l 0 rs)
  have hsrc : srcOf (cut l 0 rs) = l := by rw [srcOf_cut l 0 _ hfit]; simp
  have hlen := editedLen_groupOf (cut l 0 rs)
  rw [hsrc, groupOf_cut l 0 rs hfit] at happ
  rw [hsrc, groupOf_cut l 0 rs hfit] at hlen
  have e := Except.ok.inj (happ.symm.trans ho)
  rw [e] at hlen
  have hlen' : editedLen l.length 0 rs < 2 ^ 32 := by omega
  refine ⟨(apply_same l _ (by simp only; omega)).trans ho, ?_, ?_⟩
  · exact inverse_same σ l rs hfit hl (by omega) hlen'
  · intro labels f hlab
    refine propagate_same labels f rs (by omega) ?_ ?_
    · rw [hlab]; exact hfit
    · rw [hlab]; exact hlen'

end Uttut
