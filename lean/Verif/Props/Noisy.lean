import Verif.Props.Warnings
import Verif.Spec.Noisy
import Verif.Props.Builtins

/-!
C100: operators, label aligners and pipes never warn.
-/

namespace Uttut

open Spec Warned

namespace Noisy

/-- The aligner of the model without warnings, as one that never warns. -/
def still (a : Uttut.Aligner) : Aligner :=
  { inputLength := a.inputLength, outputLength := a.outputLength
    fwd := fun l => lift (a.fwd l), bwd := fun l => lift (a.bwd l) }

def pair {γ : Type} (r : Res (γ × Uttut.Aligner)) : Warned (γ × Aligner) := lift (r.map fun x => (x.1, still x.2))

theorem lift_bind {α β : Type} (r : Res α) (f : α → Res β) : lift (r >>= f) = lift r >>= fun a => lift (f a) := by
  cases r <;> rfl

theorem silent_iff {α : Type} (m : Warned α) (r : Res α) : Silent m r ↔ m = lift r := by
  constructor
  · intro h
    cases m with
    | mk run =>
      congr
      funext p
      exact (h p).trans (by cases r <;> rfl)
  · rintro rfl p
    cases r <;> rfl

theorem of_issues {α : Type} {m : Warned α} {c : Category} {r : Res α} (h : Issues m c 0 r) : m = lift r := by
  rw [← silent_iff]
  intro p
  cases hp : p c with
  | false => exact h.1 p hp
  | true => exact h.2.2 p hp rfl

theorem apply_done {β : Type} (s : List β) (g : ReplacementGroup (List β)) (h : g.isDone = true) :
    editApplyW s g = lift (Lst2Lst.apply s g) := by
  have := (C95_apply s g).1
  rw [h] at this
  exact of_issues this

theorem inverse_done {β : Type} [DecidableEq β] [NewValue (List β)] (σ : SetOrder) (s : List β)
    (g : ReplacementGroup (List β)) (h : g.isDone = true) : editInverseW σ s g = lift (editInverse σ s g) := by
  have := (C95_inverse σ s g).1
  rw [if_pos h] at this
  exact of_issues this

theorem reduce_done (labels : List Int) (g : SpanGroup) (f : Transducer) (h : g.isDone = true) :
    reduceW labels g f = lift (reduceBySpanGroup labels g f) := by
  have := (C95_reduce labels g f).1
  rw [h] at this
  exact of_issues this

theorem expand_done (labels : List Int) (g : SpanGroup) (h : g.isDone = true) :
    expandW labels g = lift (expandBySpanGroup labels g) := by
  have := (C95_expand labels g).1
  rw [if_pos h] at this
  exact of_issues this


/-! ### Aligners -/

theorem still_transform (a : Uttut.Aligner) (labels : List Int) :
    (still a).transform labels = lift (a.transform labels) := by
  unfold Aligner.transform Uttut.Aligner.transform Uttut.Aligner.validateInput Uttut.Aligner.validateOutput still
  dsimp only
  split
  · rfl
  · cases a.fwd labels with
    | error e => rfl
    | ok out =>
      show (if out.length ≠ a.outputLength then lift (.error .valueError) else pure out) = _
      show _ = lift ((if out.length ≠ a.outputLength then .error .valueError else .ok ()) >>= fun _ => .ok out)
      split <;> rfl

theorem still_inverse (a : Uttut.Aligner) (labels : List Int) :
    (still a).inverseTransform labels = lift (a.inverseTransform labels) := by
  unfold Aligner.inverseTransform Uttut.Aligner.inverseTransform Uttut.Aligner.validateInput Uttut.Aligner.validateOutput still
  dsimp only
  split
  · rfl
  · cases a.bwd labels with
    | error e => rfl
    | ok out =>
      show (if out.length ≠ a.inputLength then lift (.error .valueError) else pure out) = _
      show _ = lift ((if out.length ≠ a.inputLength then .error .valueError else .ok ()) >>= fun _ => .ok out)
      split <;> rfl

theorem ofEdit_str (σ : SetOrder) (s : Str) (g : ReplacementGroup Str) (n : Nat) (f b : Transducer)
    (h : g.isDone = true) : ofEdit (β := Char) σ s g n f b = still (Uttut.Aligner.ofStrEdit σ s g n f b) := by
  unfold ofEdit still Uttut.Aligner.ofStrEdit
  congr 1
  funext l
  rw [inverse_done σ s g h, lift_bind]
  rfl

theorem ofEdit_lst (σ : SetOrder) (s : List Tok) (g : ReplacementGroup (List Tok)) (n : Nat) (f b : Transducer)
    (h : g.isDone = true) : ofEdit σ s g n f b = still (Uttut.Aligner.ofLstEdit σ s g n f b) := by
  unfold ofEdit still Uttut.Aligner.ofLstEdit
  congr 1
  funext l
  rw [inverse_done σ s g h, lift_bind]
  rfl

theorem ofTokens_eq (σ : SetOrder) (s : Str) (g : ReplacementGroup Str) (sp : SpanGroup) (n : Nat) (f b : Transducer)
    (h : g.isDone = true) (hs : sp.isDone = true) :
    ofTokens σ s g sp n f b = still (Uttut.Aligner.ofTokens σ s g sp n f b) := by
  unfold ofTokens still Uttut.Aligner.ofTokens
  congr 1
  · funext l
    rw [lift_bind]
    congr 1
    funext x
    exact reduce_done x sp _ hs
  · funext l
    rw [inverse_done σ s g h, lift_bind]
    congr 1
    funext inv
    rw [expand_done l sp hs, lift_bind]

/-! ### Operators -/

theorem charwise_eq {α : Type} (σ : SetOrder) (nv : α → Res (Option Str)) (xs : List α) (s : Str) (f b : Transducer) :
    charwiseTransform σ nv xs s f b =
      pair (Uttut.charwiseTransform σ nv xs s fun g n => Uttut.Aligner.ofStrEdit σ s g n f b) := by
  unfold charwiseTransform Uttut.charwiseTransform
  cases enumAdd nv xs 0 ReplacementGroup.empty with
  | error e => rfl
  | ok g0 =>
    cases hd : g0.done σ with
    | error e => simp only [lift_bind_ok, lift_bind_error, Except.bind_ok, hd]; rfl
    | ok g =>
      have hg := done_isDone σ g0 g hd
      simp only [lift_bind_ok, Except.bind_ok, hd]
      rw [apply_done s g hg]
      show _ = pair (Lst2Lst.apply s g >>= _)
      cases Lst2Lst.apply s g with
      | error e => rfl
      | ok out =>
        simp only [lift_bind_ok]
        rw [ofEdit_str σ s g out.length f b hg]
        rfl

theorem tokenwise_eq (σ : SetOrder) (nv : Tok → Res (Option (List Tok))) (l : List Tok)
    (mk' : ReplacementGroup (List Tok) → Nat → Aligner) (mk : ReplacementGroup (List Tok) → Nat → Uttut.Aligner)
    (h : ∀ g n, g.isDone = true → mk' g n = still (mk g n)) :
    tokenwiseTransform σ nv l mk' = pair (Uttut.tokenwiseTransform σ nv l mk) := by
  unfold tokenwiseTransform Uttut.tokenwiseTransform
  cases enumAdd nv l 0 ReplacementGroup.empty with
  | error e => rfl
  | ok g0 =>
    cases hd : g0.done σ with
    | error e => simp only [lift_bind_ok, lift_bind_error, Except.bind_ok, hd]; rfl
    | ok g =>
      have hg := done_isDone σ g0 g hd
      simp only [lift_bind_ok, Except.bind_ok, hd]
      rw [apply_done l g hg]
      cases Lst2Lst.apply l g with
      | error e => rfl
      | ok out =>
        simp only [lift_bind_ok]
        rw [h g out.length hg]
        rfl

theorem patternGroup_done {σ : SetOrder} {m : Matcher} {nv : Str → Nat → Nat → Str} {n : Nat} {s : Str}
    {g : ReplacementGroup Str} (h : patternGroup σ m nv n s = some (.ok g)) : g.isDone = true := by
  unfold patternGroup at h
  cases hs : searchLoop m nv s n 0 ReplacementGroup.empty with
  | none => rw [hs] at h; cases h
  | some g0 =>
    rw [hs] at h
    exact done_isDone σ g0 g (Option.some.inj h)

theorem pattern_eq (σ : SetOrder) (m : Matcher) (token : Str) (f b : Transducer) (s : Str) :
    patternTransform σ m token f b s = pair (Uttut.patternTransform σ m token f b s) := by
  unfold patternTransform Uttut.patternTransform patternTransformFuel
  cases hp : patternGroup σ m (fun _ _ _ => token) (s.length + 1) s with
  | none => rfl
  | some rg =>
    cases rg with
    | error e => rfl
    | ok g =>
      have hg := patternGroup_done hp
      show editApplyW (β := Char) s g >>= _ = pair (Lst2Lst.apply s g >>= _)
      rw [apply_done s g hg]
      cases Lst2Lst.apply s g with
      | error e => rfl
      | ok out =>
        simp only [lift_bind_ok]
        rw [ofEdit_str σ s g out.length f b hg]
        rfl

theorem lowercase_eq (σ : SetOrder) (s : Str) : lowercase σ s = pair (Lowercase.transform σ s) := by
  unfold lowercase Lowercase.transform
  cases hp : patternGroup σ Lowercase.regex.search Lowercase.newValue (s.length + 1) s with
  | none => rfl
  | some rg =>
    cases rg with
    | error e => rfl
    | ok g =>
      have hg := patternGroup_done hp
      show editApplyW (β := Char) s g >>= _ = pair (Lst2Lst.apply s g >>= _)
      rw [apply_done s g hg]
      cases Lst2Lst.apply s g with
      | error e => rfl
      | ok out =>
        simp only [lift_bind_ok, Except.bind_ok]
        split <;> rfl

theorem aroundWords_eq (σ : SetOrder) (t : Trie) (shortest : Bool) (s : Str) :
    aroundWords σ t shortest s = pair (AddWhitespaceAroundWordnZhChar.transform σ t shortest s) := by
  unfold aroundWords AddWhitespaceAroundWordnZhChar.transform
  cases AddWhitespaceAroundWordnZhChar.loop t shortest s (s.length + 1) 0 ReplacementGroup.empty with
  | none => rfl
  | some g0 =>
    cases hd : g0.done σ with
    | error e => simp only [lift_bind_error, hd]; rfl
    | ok g =>
      have hg := done_isDone σ g0 g hd
      simp only [lift_bind_ok, Except.bind_ok, hd]
      rw [apply_done s g hg]
      show _ = pair (Lst2Lst.apply s g >>= _)
      cases Lst2Lst.apply s g with
      | error e => rfl
      | ok out =>
        simp only [lift_bind_ok]
        rw [ofEdit_str σ s g out.length _ _ hg]
        rfl

theorem genRep_done {σ : SetOrder} {s : Str} {tokens : List Str} {g : ReplacementGroup Str}
    (h : Str2Lst.genReplacementGroup σ s tokens = .ok g) : g.isDone = true := by
  unfold Str2Lst.genReplacementGroup at h
  cases hl : Str2Lst.genRepLoop s tokens 0 ReplacementGroup.empty with
  | error e => rw [hl] at h; cases h
  | ok x =>
    rw [hl] at h
    exact done_isDone σ _ g h

theorem genSpan_done {s : Str} {tokens : List Str} {g : SpanGroup}
    (h : Str2Lst.genSpanGroup s tokens = .ok g) : g.isDone = true := by
  unfold Str2Lst.genSpanGroup at h
  split at h
  · cases h
  · cases hl : Str2Lst.genSpanLoop s tokens 0 SpanGroup.empty with
    | error e => rw [hl] at h; cases h
    | ok g0 =>
      rw [hl] at h
      simp only [Except.bind_ok] at h
      cases hd : g0.done with
      | error e => rw [hd] at h; cases h
      | ok g1 =>
        rw [hd] at h
        simp only [Except.bind_ok] at h
        split at h
        · cases h; exact sg_done_isDone g0 g hd
        · cases h

theorem tokenizer_eq (σ : SetOrder) (f b : Transducer) (s : Str) (tokens : List Str) :
    tokenizerTransform σ f b s tokens = pair (Uttut.tokenizerTransform σ f b s tokens) := by
  unfold tokenizerTransform Uttut.tokenizerTransform
  cases hr : Str2Lst.genReplacementGroup σ s tokens with
  | error e => rfl
  | ok g =>
    have hg := genRep_done hr
    simp only [lift_bind_ok, Except.bind_ok]
    rw [apply_done s g hg]
    show _ = pair (Lst2Lst.apply s g >>= _)
    cases Lst2Lst.apply s g with
    | error e => rfl
    | ok temp =>
      simp only [lift_bind_ok, Except.bind_ok]
      rw [of_issues (C95_genSpanGroup temp tokens)]
      cases hs : Str2Lst.genSpanGroup temp tokens with
      | error e => rfl
      | ok sp =>
        simp only [lift_bind_ok]
        rw [ofTokens_eq σ s g sp tokens.length f b hg (genSpan_done hs)]
        rfl

theorem group_eq (σ : SetOrder) (group : Res (ReplacementGroup (List Tok))) (l : List Tok)
    (h : ∀ g, group = .ok g → g.isDone = true) :
    groupTransform σ group l = pair (do
      let g ← group
      let out ← Lst2Lst.apply l g
      return (out, Uttut.Aligner.ofLstEdit σ l g out.length Transduce.getNotEntity Transduce.getNotEntity)) := by
  unfold groupTransform
  cases group with
  | error e => rfl
  | ok g =>
    have hg := h g rfl
    simp only [lift_bind_ok, Except.bind_ok]
    rw [apply_done l g hg]
    cases Lst2Lst.apply l g with
    | error e => rfl
    | ok out =>
      simp only [lift_bind_ok]
      rw [ofEdit_lst σ l g out.length _ _ hg]
      rfl

/-! ### Classes -/

/-- The `_transform` of the model without warnings, as one that never warns. -/
def quiet (run : Seq → Res (Seq × Uttut.Aligner)) : Body := fun s => pair (run s)

theorem strOp_eq {f : Str → Warned (Str × Aligner)} {g : Str → Res (Str × Uttut.Aligner)}
    (h : ∀ s, f s = pair (g s)) : strOp f = quiet (Uttut.strOp g) := by
  funext s
  cases s with
  | list l => rfl
  | str s =>
    show f s >>= _ = pair (g s >>= _)
    rw [h s]
    cases g s <;> rfl

theorem tokOp_eq {f : Str → Warned (List Str × Aligner)} {g : Str → Res (List Str × Uttut.Aligner)}
    (h : ∀ s, f s = pair (g s)) : tokOp f = quiet (Uttut.tokOp g) := by
  funext s
  cases s with
  | list l => rfl
  | str s =>
    show f s >>= _ = pair (g s >>= _)
    rw [h s]
    cases g s <;> rfl

theorem lstOp_eq {f : List Tok → Warned (List Tok × Aligner)} {g : List Tok → Res (List Tok × Uttut.Aligner)}
    (h : ∀ l, f l = pair (g l)) : lstOp f = quiet (Uttut.lstOp g) := by
  funext s
  cases s with
  | str s => rfl
  | list l =>
    show f l >>= _ = pair (g l >>= _)
    rw [h l]
    cases g l <;> rfl

/-- The class with warnings and the one without differ in nothing but that the first could warn. -/
structure Twin (c' : Class) (c : OpClass) : Prop where
  sig : c'.sig = c
  init : ∀ vals, c'.init vals = (c.init vals).map quiet

theorem twin_simple (c : OpClass) (run : Seq → Res (Seq × Uttut.Aligner)) (body : Body)
    (h : c.init = fun _ => .ok run) (hb : body = quiet run) : Twin (simple c body) c := by
  refine ⟨rfl, fun vals => ?_⟩
  rw [h, hb]
  rfl

theorem replaceNoStr_eq (env : Env) (m : Matcher) (s : Str) :
    replaceNoStr env m s = pair (Builtin.replaceNoStr env m s) := by
  unfold replaceNoStr Builtin.replaceNoStr replaceAwithB ReplaceAwithB.transform
  rw [pattern_eq]
  cases Uttut.patternTransform env.σ m [' '] Transduce.getMostCommonExceptNotEntity
      Transduce.getMostCommonExceptNotEntity s with
  | error e => rfl
  | ok x =>
    show (if s.length > 0 ∧ (m s 0).isSome then lift (.error .typeError) else pure (x.1, still x.2)) =
      pair (if s.length > 0 ∧ (m s 0).isSome then .error .typeError else .ok (x.1, x.2))
    split <;> rfl

theorem perToken_eq (σ : SetOrder) (nv : Tok → Res (Option (List Tok))) (l : List Tok) :
    perToken σ nv l = pair (Uttut.tokenwiseTransform σ nv l fun _ n => Uttut.Aligner.null l.length n) :=
  tokenwise_eq σ nv l _ _ fun _ _ _ => rfl

theorem subwords_eq (σ : SetOrder) (vocab : Str → Bool) (unk : Str) (n : Int) (l : List Tok) :
    subwords σ vocab unk n l = pair (SpanSubwords.transform σ vocab unk n l) :=
  tokenwise_eq σ _ l _ _ fun g k hg => ofEdit_lst σ l g k _ _ hg

theorem spanSubwordsRun_eq (env : Env) (vocab : PyVal) (unk : Str) (n : PyVal) (l : List Tok) :
    spanSubwordsRun env vocab unk n l = pair (Builtin.spanSubwordsRun env vocab unk n l) := by
  unfold spanSubwordsRun Builtin.spanSubwordsRun
  cases n.asInt with
  | ok k =>
    cases vocab.has with
    | ok has => exact subwords_eq env.σ has unk k l
    | error e =>
      dsimp only
      split
      · rfl
      · exact subwords_eq env.σ _ unk k l
  | error e =>
    dsimp only
    split
    · exact subwords_eq env.σ _ unk 0 l
    · rfl

theorem addAll_done {V : Type} [DecidableEq V] [NewValue V] {σ : SetOrder} {rs : List (Int × Int × V)}
    {g : ReplacementGroup V} (h : ReplacementGroup.addAll σ rs = .ok g) : g.isDone = true := by
  unfold ReplacementGroup.addAll at h
  obtain ⟨g0, _, h⟩ := bind_eq_ok h
  exact done_isDone σ g0 g h

theorem padGroup_done {σ : SetOrder} {n : Int} {t : Tok} {l : List Tok} {g : ReplacementGroup (List Tok)}
    (h : Pad.group σ n t l = .ok g) : g.isDone = true := by
  unfold Pad.group at h
  dsimp only at h
  split at h
  · exact addAll_done h
  · split at h <;> exact addAll_done h

theorem customTokenizer_eq (σ : SetOrder) (t : Trie) (shortest : Bool) (s : Str) :
    customTokenizer σ t shortest s = pair (CustomWordTokenizer.transform σ t shortest s) := by
  unfold customTokenizer CustomWordTokenizer.transform
  cases CustomWordTokenizer.tokenize t shortest s with
  | none => rfl
  | some tokens => exact tokenizer_eq σ _ _ s tokens

theorem stripAccent_eq (σ : SetOrder) (u : Unicode) (s : Str) :
    stripAccentToken σ u s = pair (StripAccentToken.transform σ u s) := by
  unfold stripAccentToken StripAccentToken.transform
  dsimp only
  split
  · exact charwise_eq σ _ _ s _ _
  · rfl

theorem bind_quiet {α : Type} (r : Res α) (f : α → Res Body) (g : α → Res (Seq → Res (Seq × Uttut.Aligner)))
    (h : ∀ a, f a = (g a).map quiet) : (r >>= f) = (r >>= g).map quiet := by
  cases r with
  | error e => rfl
  | ok a => exact h a

theorem ok_quiet {body : Body} {run : Seq → Res (Seq × Uttut.Aligner)} (h : body = quiet run) :
    (Except.ok body : Res Body) = (Except.ok run : Res _).map quiet := congrArg Except.ok h

theorem twin_aroundWord (env : Env) : Twin ⟨Builtin.aroundWord env, aroundWordInit env⟩ (Builtin.aroundWord env) :=
  ⟨rfl, fun vals => match vals with
    | [] | [_] | _ :: _ :: _ :: _ => rfl
    | [_, sh] => bind_quiet _ _ _ fun t => ok_quiet (strOp_eq fun s => aroundWords_eq env.σ t sh.truthy s)⟩

theorem twin_replace (env : Env) : Twin ⟨Builtin.replace env, replaceInit env⟩ (Builtin.replace env) :=
  ⟨rfl, fun vals => match vals with
    | [] | [_] | _ :: _ :: _ :: _ => rfl
    | [_, b] => bind_quiet _ _ _ fun p => by
      cases env.compile p with
      | none => rfl
      | some m =>
        cases b with
        | str new => exact ok_quiet (strOp_eq fun s => pattern_eq env.σ m new _ _ s)
        | _ => exact ok_quiet (strOp_eq fun s => replaceNoStr_eq env m s)⟩

theorem twin_customTok (env : Env) : Twin ⟨Builtin.customTok env, customTokInit env⟩ (Builtin.customTok env) :=
  ⟨rfl, fun vals => match vals with
    | [] | [_] | _ :: _ :: _ :: _ => rfl
    | [_, sh] => bind_quiet _ _ _ fun t => ok_quiet (tokOp_eq fun s => customTokenizer_eq env.σ t sh.truthy s)⟩

theorem twin_sosEos (env : Env) : Twin ⟨Builtin.sosEos env, sosEosInit env⟩ (Builtin.sosEos env) :=
  ⟨rfl, fun vals => match vals with
    | [] | [_] | _ :: _ :: _ :: _ => rfl
    | [_, _] => bind_quiet _ _ _ fun s => bind_quiet _ _ _ fun e => ok_quiet (lstOp_eq fun l =>
        group_eq env.σ _ l fun _ h => addAll_done h)⟩

theorem twin_endTok (env : Env) : Twin ⟨Builtin.endTok env, endTokInit env⟩ (Builtin.endTok env) :=
  ⟨rfl, fun vals => match vals with
    | [] => rfl
    | v :: _ :: _ => by cases v <;> rfl
    | [v] => by
      have h : ∀ r : Res Str, (r >>= fun e => AddEndToken.init e >>= fun e => Except.ok (lstOp fun l => groupTransform env.σ
          (ReplacementGroup.addAll env.σ [((l.length : Int), (l.length : Int), [.str e])]) l)) =
          (r >>= fun e => AddEndToken.init e >>= fun e =>
            Except.ok (Uttut.lstOp (AddEndToken.transform env.σ (.str e)))).map quiet := fun r =>
        bind_quiet _ _ _ fun s => bind_quiet _ _ _ fun e => ok_quiet (lstOp_eq fun l =>
          group_eq env.σ _ l fun _ h => addAll_done h)
      cases v with
      | none => rfl
      | _ => exact h _⟩

theorem twin_pad (env : Env) : Twin ⟨Builtin.pad env, padInit env⟩ (Builtin.pad env) :=
  ⟨rfl, fun vals => match vals with
    | [] | [_] | _ :: _ :: _ :: _ => rfl
    | [n, _] => bind_quiet _ _ _ fun t => ok_quiet (lstOp_eq fun l => by
        cases n.asInt with
        | error e => rfl
        | ok n => exact group_eq env.σ _ l fun _ h => padGroup_done h)⟩

theorem twin_token2index (env : Env) : Twin ⟨Builtin.token2index env, token2indexInit env⟩ (Builtin.token2index env) :=
  ⟨rfl, fun vals => match vals with
    | [] | [_] | _ :: _ :: _ :: _ => rfl
    | [_, unk] => bind_quiet _ _ _ fun d => by
      have h : ∀ b : Bool, (validateContinuity d >>= fun _ =>
          (if b then .error .keyError else .error .typeError : Res Body)) =
          (validateContinuity d >>= fun _ => if b then .error .keyError else .error .typeError).map quiet := fun b =>
        bind_quiet _ _ _ fun _ => by cases b <;> rfl
      cases unk with
      | str unk => exact bind_quiet _ _ _ fun _ => ok_quiet (lstOp_eq fun l => perToken_eq env.σ _ l)
      | _ => exact h _⟩

theorem twin_spanSubwords (env : Env) : Twin ⟨Builtin.spanSubwords env, spanSubwordsInit env⟩ (Builtin.spanSubwords env) :=
  ⟨rfl, fun vals => match vals with
    | [] | [_] | [_, _] | _ :: _ :: _ :: _ :: _ => rfl
    | [v, _, n] => bind_quiet _ _ _ fun unk => ok_quiet (lstOp_eq fun l => spanSubwordsRun_eq env v unk n l)⟩

theorem twin_token2indexHash (env : Env) :
    Twin ⟨Builtin.token2indexHash env, token2indexHashInit env⟩ (Builtin.token2indexHash env) :=
  ⟨rfl, fun vals => match vals with
    | [] | _ :: _ :: _ => rfl
    | [_] => bind_quiet _ _ _ fun _ => bind_quiet _ _ _ fun _ => ok_quiet (lstOp_eq fun l => perToken_eq env.σ _ l)⟩

theorem twin_pureNum (env : Env) : Twin ⟨Builtin.pureNum env, pureNumInit env⟩ (Builtin.pureNum env) :=
  ⟨rfl, fun vals => match vals with
    | [] => rfl
    | v :: _ :: _ => by cases v <;> rfl
    | [v] => by
      have h : ∀ r : Res Tok, (r >>= fun t => Except.ok (lstOp (perToken env.σ (PureNum2Token.newValue env.u t)))) =
          (r >>= fun t => Except.ok (Uttut.lstOp (PureNum2Token.transform env.σ env.u t))).map quiet := fun r =>
        bind_quiet _ _ _ fun t => ok_quiet (lstOp_eq fun l => perToken_eq env.σ _ l)
      cases v with
      | none => exact ok_quiet (lstOp_eq fun l => perToken_eq env.σ _ l)
      | _ => exact h _⟩

theorem twins (env : Env) : List.Forall₂ Twin (all env) (Builtin.all env) := by
  unfold all Builtin.all Builtin.concrete
  simp only [List.cons_append, List.nil_append]
  refine .cons ⟨rfl, fun _ => rfl⟩ <|
    .cons (twin_simple _ _ _ rfl (strOp_eq fun s => charwise_eq env.σ _ s s _ _)) <|
    .cons (twin_simple _ _ _ rfl (strOp_eq fun s => by split <;> rfl)) <|
    .cons (twin_simple _ _ _ rfl (tokOp_eq fun s => rfl)) <|
    .cons (twin_simple _ _ _ rfl (strOp_eq fun s => lowercase_eq env.σ s)) <|
    .cons (twin_simple _ _ _ rfl (strOp_eq fun s => charwise_eq env.σ _ s s _ _)) <|
    .cons (twin_simple _ _ _ rfl (strOp_eq fun s => charwise_eq env.σ _ s s _ _)) <|
    .cons (twin_aroundWord env) <|
    .cons (twin_simple _ _ _ rfl (strOp_eq fun s => stripAccent_eq env.σ env.u s)) <|
    .cons (twin_simple _ _ _ rfl (strOp_eq fun s => charwise_eq env.σ _ s s _ _)) <|
    .cons (twin_simple _ _ _ rfl (strOp_eq fun s => pattern_eq env.σ _ _ _ _ s)) <|
    .cons (twin_simple _ _ _ rfl (strOp_eq fun s => pattern_eq env.σ _ _ _ _ s)) <|
    .cons (twin_simple _ _ _ rfl (strOp_eq fun s => pattern_eq env.σ _ _ _ _ s)) <|
    .cons (twin_simple _ _ _ rfl (strOp_eq fun s => pattern_eq env.σ _ _ _ _ s)) <|
    .cons (twin_simple _ _ _ rfl (strOp_eq fun s => pattern_eq env.σ _ _ _ _ s)) <|
    .cons (twin_simple _ _ _ rfl (strOp_eq fun s => pattern_eq env.σ _ _ _ _ s)) <|
    .cons (twin_simple _ _ _ rfl (strOp_eq fun s => pattern_eq env.σ _ _ _ _ s)) <|
    .cons (twin_simple _ _ _ rfl (strOp_eq fun s => pattern_eq env.σ _ _ _ _ s)) <|
    .cons (twin_replace env) <|
    .cons (twin_simple _ _ _ rfl (tokOp_eq fun s => tokenizer_eq env.σ _ _ s _)) <|
    .cons (twin_simple _ _ _ rfl (tokOp_eq fun s => tokenizer_eq env.σ _ _ s _)) <|
    .cons (twin_simple _ _ _ rfl (tokOp_eq fun s => tokenizer_eq env.σ _ _ s _)) <|
    .cons (twin_simple _ _ _ rfl (tokOp_eq fun s => tokenizer_eq env.σ _ _ s _)) <|
    .cons (twin_customTok env) <|
    .cons (twin_sosEos env) <|
    .cons (twin_pad env) <|
    .cons (twin_token2index env) <|
    .cons (twin_spanSubwords env) <|
    .cons (twin_token2indexHash env) <|
    .cons (twin_pureNum env) <|
    .cons (twin_endTok env) .nil

theorem twin_own (env : Env) (c : OwnClass) : Twin (c.noisy env) (c.plain env) := by
  cases c with
  | tokenizer f b c =>
    exact ⟨rfl, fun vals => bind_quiet _ _ _ fun tk => ok_quiet (tokOp_eq fun s => by
      cases tk s with
      | error e => rfl
      | ok tokens => exact tokenizer_eq env.σ f b s tokens)⟩
  | recognizer f b c =>
    exact ⟨rfl, fun vals => bind_quiet _ _ _ fun mt => ok_quiet (strOp_eq fun s => pattern_eq env.σ mt.1 mt.2 f b s)⟩
  | around c =>
    exact ⟨rfl, fun vals => bind_quiet _ _ _ fun v => ok_quiet (strOp_eq fun s => charwise_eq env.σ _ s s _ _)⟩

theorem all_twins (env : Env) (own : List OwnClass) :
    List.Forall₂ Twin (Noisy.all env ++ own.map (·.noisy env)) (Builtin.all env ++ own.map (·.plain env)) := by
  refine List.rel_append (twins env) ?_
  induction own with
  | nil => exact .nil
  | cons c own ih => exact .cons (twin_own env c) ih

/-! ### Objects and pipes -/

/-- Objects that differ in nothing but that the first could warn. -/
structure TwinOp (o' : Op) (o : Uttut.Op) : Prop where
  inputType : o'.inputType = o.cls.inputType
  outputType : o'.outputType = o.cls.outputType
  run : o'.run = quiet o.run

theorem twin_call {c' : Class} {c : OpClass} (h : Twin c' c) (args : List PyVal) (kwargs : List (Str × PyVal)) :
    (∃ e, c'.call args kwargs = .error e ∧ c.call args kwargs = .error e) ∨
    ∃ o' o, c'.call args kwargs = .ok o' ∧ c.call args kwargs = .ok o ∧ TwinOp o' o := by
  unfold Class.call OpClass.call
  rw [h.sig]
  cases c.bindArgs args kwargs with
  | error e => exact .inl ⟨e, rfl, rfl⟩
  | ok vals =>
    simp only [Except.bind_ok]
    rw [h.init vals]
    cases c.init vals with
    | error e => exact .inl ⟨e, rfl, rfl⟩
    | ok run => exact .inr ⟨_, _, rfl, rfl, rfl, rfl, rfl⟩

theorem twin_transform {o' : Op} {o : Uttut.Op} (h : TwinOp o' o) (s : Seq) :
    o'.transform s = pair (o.transform s) := by
  unfold Op.transform Uttut.Op.transform
  rw [h.inputType, h.outputType, h.run]
  split
  · rfl
  · show pair (o.run s) >>= _ = _
    cases o.run s with
    | error e => rfl
    | ok x =>
      show (if x.1.type ≠ o.cls.outputType then lift (.error .typeError) else pure (x.1, still x.2)) =
        pair (if x.1.type ≠ o.cls.outputType then .error .typeError else .ok (x.1, x.2))
      split <;> rfl

theorem runSteps_eq : ∀ {os' : List Op} {os : List Uttut.Op}, List.Forall₂ TwinOp os' os →
    ∀ (s : Seq) (as : List Uttut.Aligner) (coll : List Seq),
    runSteps os' s (as.map still) coll =
      lift ((Pipe.runSteps os s as coll).map fun x => (x.1, x.2.1.map still, x.2.2)) := by
  intro os' os h
  induction h with
  | nil => intros; rfl
  | @cons o' o os' os ho _ ih =>
    intro s as coll
    unfold runSteps Pipe.runSteps
    rw [twin_transform ho]
    cases o.transform s with
    | error e => rfl
    | ok x =>
      show runSteps os' x.1 (as.map still ++ [still x.2]) (coll ++ [x.1]) = _
      have := ih x.1 (as ++ [x.2]) (coll ++ [x.1])
      rw [List.map_append] at this
      exact this

theorem alignAll_still : ∀ (as : List Uttut.Aligner) (labels : List Int),
    alignAll (as.map still) labels = lift (Uttut.alignAll as labels)
  | [], _ => rfl
  | a :: as, labels => by
    show (still a).transform labels >>= _ = _
    rw [still_transform]
    unfold Uttut.alignAll
    cases a.transform labels with
    | error e => rfl
    | ok l => exact alignAll_still as l

theorem realignLoop_still : ∀ (as : List Uttut.Aligner) (labels : List Int),
    realignLoop (as.map still) labels = lift (Uttut.realignLoop as labels)
  | [], _ => rfl
  | a :: as, labels => by
    show (still a).inverseTransform labels >>= _ = _
    rw [still_inverse]
    unfold Uttut.realignLoop
    cases a.inverseTransform labels with
    | error e => rfl
    | ok l => exact realignLoop_still as l

theorem realignAll_still (as : List Uttut.Aligner) (labels : List Int) :
    realignAll (as.map still) labels = lift (Uttut.realignAll as labels) := by
  unfold realignAll Uttut.realignAll
  rw [← List.map_reverse]
  exact realignLoop_still as.reverse labels

theorem silent_step {m : Warned (Seq × Aligner)} {r : Res (Seq × Uttut.Aligner)} (h : m = pair r) : SilentStep m r := by
  subst h
  cases r with
  | error e => exact .inl ⟨e, rfl, fun _ => rfl⟩
  | ok x => exact .inr ⟨x.1, still x.2, x.2, rfl, fun _ => rfl, rfl, rfl,
      fun l => (silent_iff _ _).2 (still_transform x.2 l), fun l => (silent_iff _ _).2 (still_inverse x.2 l)⟩

theorem silent_run {os' : List Op} {p : Pipe} (h : List.Forall₂ TwinOp os' p.steps) (d : Datum) :
    SilentRun (transform os' d) (p.transform d) := by
  unfold transform Pipe.transform
  cases unpackDatum d with
  | error e => exact .inl ⟨e, rfl, fun _ => rfl⟩
  | ok x =>
    obtain ⟨u, is, es⟩ := x
    simp only [lift_bind_ok, Except.bind_ok]
    have hr := runSteps_eq h (.str u) [] [.str u]
    unfold transformSequence Pipe.transformSequence
    rw [show runSteps os' (.str u) [] [.str u] = _ from hr]
    cases Pipe.runSteps p.steps (.str u) [] [.str u] with
    | error e => exact .inl ⟨e, rfl, fun _ => rfl⟩
    | ok y =>
      obtain ⟨out, as, coll⟩ := y
      show SilentRun (alignAll (as.map still) es >>= fun labels =>
          pure (Transformed.mk out is labels (as.map still) coll))
        (Uttut.alignAll as es >>= fun labels => .ok (Uttut.Transformed.mk out is labels as coll))
      rw [alignAll_still]
      cases Uttut.alignAll as es with
      | error e => exact .inl ⟨e, rfl, fun _ => rfl⟩
      | ok labels =>
        exact .inr ⟨_, _, rfl, fun _ => rfl, rfl, rfl, rfl, rfl, fun l =>
          ⟨(silent_iff _ _).2 (alignAll_still as l), (silent_iff _ _).2 (realignAll_still as l)⟩⟩

theorem find_twin {cs' : List Class} {cs : List OpClass} (h : List.Forall₂ Twin cs' cs) (name : Str) :
    (∃ c' c, (cs'.find? fun c => c.sig.name = name) = some c' ∧
        Factory.get (cs.map fun c => (c.name, c)) name = .ok c ∧ Twin c' c) ∨
    ((cs'.find? fun c => c.sig.name = name) = none ∧
      Factory.get (cs.map fun c => (c.name, c)) name = .error .keyError) := by
  induction h with
  | nil => exact .inr ⟨rfl, rfl⟩
  | @cons c' c cs' cs hc _ ih =>
    by_cases hn : c.name = name
    · refine .inl ⟨c', c, ?_, ?_, hc⟩
      · rw [List.find?_cons_of_pos]
        simp [hc.sig, hn]
      · simp [Factory.get, dictGet, hn]
    · rw [List.find?_cons_of_neg (by simp [hc.sig, hn])]
      have : Factory.get ((c :: cs).map fun c => (c.name, c)) name =
          Factory.get (cs.map fun c => (c.name, c)) name := by
        simp [Factory.get, dictGet, hn]
      rw [this]
      exact ih

end Noisy

open Noisy

/-- **C100** every built-in class, and every class written by a user on one of the three base classes: its objects' `transform`
issues no warning, whatever is turned into an exception, has the same outcome as without warnings, and the aligner it returns
never warns either. -/
theorem C100_operators (env : Env) (own : List OwnClass) (name : Str) (args : List PyVal) (kwargs : List (Str × PyVal)) :
    (∃ e, ((registryWith env own).get name).bind (fun c => c.call args kwargs) = .error e ∧
      makeAll (Noisy.all env ++ own.map (·.noisy env)) [(name, args, kwargs)] = .error e) ∨
    ∃ op op', ((registryWith env own).get name).bind (fun c => c.call args kwargs) = .ok op ∧
      makeAll (Noisy.all env ++ own.map (·.noisy env)) [(name, args, kwargs)] = .ok [op'] ∧
      ∀ s, SilentStep (op'.transform s) (op.transform s) := by
  unfold makeAll
  rcases find_twin (all_twins env own) name with ⟨c', c, h1, h2, h3⟩ | ⟨h1, h2⟩
  · rw [h1, show (registryWith env own).get name = .ok c from h2]
    rcases twin_call h3 args kwargs with ⟨e, e1, e2⟩ | ⟨o', o, e1, e2, e3⟩
    · exact .inl ⟨e, e2, by simp only [e1]; rfl⟩
    · exact .inr ⟨o, o', e2, by simp only [e1]; rfl, fun s => silent_step (twin_transform e3 s)⟩
  · rw [h1, show (registryWith env own).get name = _ from h2]
    exact .inl ⟨_, rfl, rfl⟩

/-- **C100** pipes of such operators: `Pipe.transform` and mapping labels forward and back issue no warning, whatever is
turned into an exception. -/
theorem C100_pipe (env : Env) (own : List OwnClass) (calls : List (Str × List PyVal × List (Str × PyVal))) :
    ∃ r, Makes (registryWith env own) calls r ∧
      ((∃ e, r = .error e ∧ makeAll (Noisy.all env ++ own.map (·.noisy env)) calls = .error e) ∨
       ∃ ops ops', r = .ok ops ∧ makeAll (Noisy.all env ++ own.map (·.noisy env)) calls = .ok ops' ∧
        ∀ (checkpoints : List (Str × Int)) (d : Datum),
          SilentRun (Noisy.transform ops' d) (Pipe.transform ⟨ops, checkpoints⟩ d)) := by
  suffices h : ∃ r, Makes (registryWith env own) calls r ∧
      ((∃ e, r = .error e ∧ makeAll (Noisy.all env ++ own.map (·.noisy env)) calls = .error e) ∨
       ∃ ops ops', r = .ok ops ∧ makeAll (Noisy.all env ++ own.map (·.noisy env)) calls = .ok ops' ∧
        List.Forall₂ TwinOp ops' ops) by
    obtain ⟨r, h1, h2⟩ := h
    refine ⟨r, h1, h2.imp id ?_⟩
    rintro ⟨ops, ops', e1, e2, e3⟩
    exact ⟨ops, ops', e1, e2, fun cp d => silent_run (p := ⟨ops, cp⟩) e3 d⟩
  induction calls with
  | nil => exact ⟨.ok [], rfl, .inr ⟨[], [], rfl, rfl, .nil⟩⟩
  | cons x rest ih =>
    obtain ⟨name, args, kwargs⟩ := x
    unfold makeAll
    obtain ⟨tail, ht, hcase⟩ := ih
    rcases find_twin (all_twins env own) name with ⟨c', c, h1, h2, h3⟩ | ⟨h1, h2⟩
    · rw [h1]
      have h2 : (registryWith env own).get name = .ok c := h2
      rcases twin_call h3 args kwargs with ⟨e, e1, e2⟩ | ⟨o', o, e1, e2, e3⟩
      · exact ⟨.error e, .inl ⟨e, by rw [h2]; exact e2, rfl⟩, .inl ⟨e, rfl, by simp only [e1]; rfl⟩⟩
      · have ho : ((registryWith env own).get name).bind (fun c => c.call args kwargs) = .ok o := by
          rw [h2]; exact e2
        rcases hcase with ⟨e, f1, f2⟩ | ⟨ops, ops', f1, f2, f3⟩
        · exact ⟨.error e, .inr ⟨o, tail, ho, ht, .inl ⟨e, f1, rfl⟩⟩, .inl ⟨e, rfl, by
            simp only [e1, f2]; rfl⟩⟩
        · exact ⟨.ok (o :: ops), .inr ⟨o, tail, ho, ht, .inr ⟨ops, f1, rfl⟩⟩, .inr ⟨o :: ops, o' :: ops', rfl, by
            simp only [e1, f2]; rfl, .cons e3 f3⟩⟩
    · rw [h1]
      have h2 : (registryWith env own).get name = .error .keyError := h2
      exact ⟨.error .keyError, .inl ⟨_, by rw [h2]; rfl, rfl⟩, .inl ⟨_, rfl, rfl⟩⟩

/-- A tokenizer in a pipe, with every warning turned into an exception: the tokens come out. -/
example : ∃ ops t, makeAll (Noisy.all exEnv) [("CharTokenizer".toList, [], [])] = .ok ops ∧
    (Noisy.transformSequence ops (.str "ab".toList)).run (fun _ => true) = ([], .ok t) ∧
    t.1 = .list [.str ['a'], .str ['b']] ∧ t.2.1.length = 1 := ⟨_, _, rfl, rfl, rfl, rfl⟩

/-- A class that is not registered. -/
example : makeAll (Noisy.all exEnv) [("NoOp".toList, [], [])] = .error .keyError := by
  rfl

/-- The aligner of an edit on which `done` was not called would warn. -/
example (σ : SetOrder) : ((ofEdit (β := Char) σ ['a'] (ReplacementGroup.empty.add 0 1 ['x']) 1 Transduce.getNotEntity
    Transduce.getNotEntity).inverseTransform [1]).run (fun _ => true) = ([], .error (.warning .user)) := rfl

end Uttut
