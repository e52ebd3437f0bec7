import Verif.Spec.Arguments
import Verif.Props.Construct
import Verif.Props.Parts

/-! C84: operators made with arguments of types other than the documented ones. -/

namespace Uttut

open Spec

theorem truthy_iff (v : PyVal) : v.truthy = true ↔ ¬ Falsy v := by
  constructor
  · intro h hf
    cases hf <;> cases h
  · intro h
    cases v with
    | none => exact absurd .none h
    | bool b => cases b with
      | false => exact absurd .false h
      | true => rfl
    | int i =>
      simp only [PyVal.truthy, bne_iff_ne, ne_eq]
      rintro rfl
      exact h .zero
    | str s => cases s with
      | nil => exact absurd .str h
      | cons => rfl
    | list s => cases s with
      | nil => exact absurd .list h
      | cons => rfl
    | tuple s => cases s with
      | nil => exact absurd .tuple h
      | cons => rfl
    | dict s => cases s with
      | nil => exact absurd .dict h
      | cons => rfl

theorem asInt_iff (v : PyVal) (i : Int) : v.asInt = .ok i ↔ IsNumber v i := by
  constructor
  · intro h
    cases v with
    | int j => injection h with h; subst h; exact .int _
    | bool b => cases b <;> (injection h with h; subst h; constructor)
    | _ => cases h
  · intro h
    cases h <;> rfl

theorem asInt_none {v : PyVal} (h : ¬ ∃ i, IsNumber v i) : v.asInt = .error .typeError := by
  cases v with
  | int i => exact absurd ⟨i, .int i⟩ h
  | bool b => cases b with
    | true => exact absurd ⟨1, .true⟩ h
    | false => exact absurd ⟨0, .false⟩ h
  | _ => rfl

theorem asTok_of {v : PyVal} {t : Tok} (h : IsToken v t) : v.asTok = .ok t := by
  cases h with
  | str s => rfl
  | num _ i h => cases h <;> rfl

theorem elements_of {v : PyVal} {ws : List Str} (h : WordsIn v ws) : v.elements = .ok (ws.map PyVal.str) := by
  cases h with
  | list => rfl
  | tuple => rfl
  | str s => simp only [PyVal.elements, List.map_map]; rfl
  | dict d => simp only [PyVal.elements, List.map_map]; rfl

mutual
theorem unhashable_iff : ∀ v : PyVal, v.hashable = false ↔ Unhashable v
  | .list l => ⟨fun _ => .list l, fun _ => rfl⟩
  | .dict d => ⟨fun _ => .dict d, fun _ => rfl⟩
  | .tuple l => by
    show PyVal.hashables l = false ↔ _
    rw [unhashables_iff l]
    exact ⟨fun ⟨v, hv, h⟩ => .tuple l v hv h, fun h => by cases h with | tuple _ v hv h => exact ⟨v, hv, h⟩⟩
  | .none => ⟨fun h => (by cases h), fun h => (by cases h)⟩
  | .bool _ => ⟨fun h => (by cases h), fun h => (by cases h)⟩
  | .int _ => ⟨fun h => (by cases h), fun h => (by cases h)⟩
  | .str _ => ⟨fun h => (by cases h), fun h => (by cases h)⟩
theorem unhashables_iff : ∀ l : List PyVal, PyVal.hashables l = false ↔ ∃ v ∈ l, Unhashable v
  | [] => ⟨fun h => (by cases h), fun ⟨_, h, _⟩ => (by cases h)⟩
  | v :: l => by
    show (v.hashable && PyVal.hashables l) = false ↔ _
    rw [Bool.and_eq_false_iff, unhashable_iff v, unhashables_iff l]
    simp only [List.mem_cons, exists_eq_or_imp]
end

/-! ### User words -/

theorem insertWords_append (t : Trie) (us vs : List PyVal) :
    Builtin.insertWords t (us ++ vs) = (Builtin.insertWords t us >>= fun t => Builtin.insertWords t vs) := by
  induction us generalizing t with
  | nil => rfl
  | cons u us ih =>
    show (u.asStr >>= fun w => t.insert w >>= fun t => Builtin.insertWords t (us ++ vs)) =
      ((u.asStr >>= fun w => t.insert w >>= fun t => Builtin.insertWords t us) >>= _)
    cases u.asStr with
    | error e => rfl
    | ok w =>
      show (t.insert w >>= _) = ((t.insert w >>= _) >>= _)
      cases t.insert w with
      | error e => rfl
      | ok t1 => exact ih t1

/-- Words followed by something that is no text. -/
theorem userWords_stuck {v : PyVal} {pre : List Str} {x : PyVal} {post : List PyVal}
    (h : v.elements = .ok (pre.map PyVal.str ++ x :: post)) (hx : x.asStr = .error .typeError) :
    ((pre.filter fun w => w ≠ []).Nodup → Builtin.userWords v = .error .typeError) ∧
    (¬ (pre.filter fun w => w ≠ []).Nodup → Builtin.userWords v = .error .attributeError) := by
  have h2 : Builtin.userWords v = Builtin.insertWords TrieNode.empty (pre.map PyVal.str ++ x :: post) := by
    have : Builtin.userWords v = (v.elements >>= fun vs =>
        if vs.length < 1 then .error .valueError else Builtin.insertWords TrieNode.empty vs) := by
      cases v with
      | none => cases h
      | _ => rfl
    rw [this, h]
    show (if _ then _ else _) = _
    rw [if_neg (by simp)]
  rw [h2, insertWords_append, insertWords_strings]
  have hstep : ∀ t, Builtin.insertWords t (x :: post) = .error .typeError := by
    intro t
    show (x.asStr >>= _) = _
    rw [hx]
    rfl
  have hfold : pre ≠ [] → List.foldlM (fun t w => Trie.insert t w) TrieNode.empty pre = Trie.ofUserWords pre := by
    intro hp
    unfold Trie.ofUserWords
    rw [if_neg (by cases pre with | nil => exact absurd rfl hp | cons => simp)]
  refine ⟨fun hn => ?_, fun hn => ?_⟩
  · by_cases hp : pre = []
    · subst hp
      exact hstep _
    · obtain ⟨t, ht⟩ := (C36_build pre).1.mpr ⟨hp, hn⟩
      rw [hfold hp, ht]
      exact hstep t
  · have hp : pre ≠ [] := by rintro rfl; exact hn List.nodup_nil
    rw [hfold hp, (C36_build pre).2.2 hp hn]
    rfl

/-- C84: `CustomWordTokenizer` takes its words from any list, tuple, text or dict, and any value for `shortest`. -/
theorem C84_custom_tokenizer (env : Env) (args : List PyVal) (kwargs : List (Str × PyVal)) (v sh : PyVal)
    (hb : bound wordParams args kwargs = some [v, sh]) :
    (∀ ws short, WordsIn v ws → (short = true ↔ ¬ Falsy sh) →
      (GoodWords ws → ∃ op, create env "CustomWordTokenizer" args kwargs = .ok op ∧
        ∀ s segs, WordSegs ws short s segs → Gives op (.str s) (.list (segs.map Tok.str))) ∧
      (ws = [] → create env "CustomWordTokenizer" args kwargs = .error .valueError) ∧
      (ws ≠ [] → ¬ GoodWords ws → create env "CustomWordTokenizer" args kwargs = .error .attributeError)) ∧
    (∀ i, IsNumber v i → create env "CustomWordTokenizer" args kwargs = .error .typeError) ∧
    (∀ (pre : List Str) x post, v = .list (pre.map PyVal.str ++ x :: post) ∨ v = .tuple (pre.map PyVal.str ++ x :: post) →
      x = .none ∨ (∃ i, IsNumber x i) →
      create env "CustomWordTokenizer" args kwargs =
        .error (if (pre.filter fun w => w ≠ []).Nodup then .typeError else .attributeError)) := by
  obtain ⟨h1, h2, h3⟩ := create_eq (env := env) (name := "CustomWordTokenizer") (c := Builtin.customTok env) rfl
    wordParams rfl rfl (by decide) args kwargs
  have hini : ∀ r, Builtin.userWords v = r → (Builtin.customTok env).init [v, sh] =
      r >>= fun t => .ok (tokOp (CustomWordTokenizer.transform env.σ t sh.truthy)) := by
    rintro _ rfl
    rfl
  refine ⟨fun ws short hw hs => ?_, fun i hi => ?_, fun pre x post hv hx => ?_⟩
  · have e : sh.truthy = short := by rw [Bool.eq_iff_iff, truthy_iff, hs]
    have hu := userWords_elements (elements_of hw)
    rw [e] at hini
    refine ⟨fun hg => ?_, fun hn => ?_, fun hn hg => ?_⟩
    · obtain ⟨t, ht⟩ := (C36_build ws).1.mpr hg
      refine ⟨_, h1 _ _ hb (hini (.ok t) (hu.trans ht)), fun s segs hs => ?_⟩
      obtain ⟨a, segs', g1, g2, _⟩ := C37_C42_custom env.σ ws t ht short s
      rw [C37_division_unique ws short s segs segs' hs g2]
      exact gives_tok rfl rfl g1
    · exact h2 _ _ hb ((hini _ (hu.trans ((C36_build ws).2.1 hn))).trans rfl)
    · exact h2 _ _ hb ((hini _ (hu.trans ((C36_build ws).2.2 hn fun h => hg ⟨hn, h⟩))).trans rfl)
  · refine h2 _ _ hb ((hini (.error .typeError) ?_).trans rfl)
    cases hi <;> rfl
  · have hx' : x.asStr = .error .typeError := by
      rcases hx with rfl | ⟨i, hi⟩
      · rfl
      · cases hi <;> rfl
    have hel : v.elements = .ok (pre.map PyVal.str ++ x :: post) := by rcases hv with rfl | rfl <;> rfl
    obtain ⟨g1, g2⟩ := userWords_stuck hel hx'
    split
    · rename_i hn
      exact h2 _ _ hb ((hini _ (g1 hn)).trans rfl)
    · rename_i hn
      exact h2 _ _ hb ((hini _ (g2 hn)).trans rfl)

/-- C84: the same for `AddWhitespaceAroundWordnZhChar`. -/
theorem C84_around_words (env : Env) (args : List PyVal) (kwargs : List (Str × PyVal)) (v sh : PyVal)
    (hb : bound wordParams args kwargs = some [v, sh]) :
    (∀ ws short, WordsIn v ws → (short = true ↔ ¬ Falsy sh) →
      (GoodWords ws → ∃ op, create env "AddWhitespaceAroundWordnZhChar" args kwargs = .ok op ∧
        ∀ s segs, WordSegs ws short s segs → Gives op (.str s) (.str (segs.flatMap (spaced ws)))) ∧
      (ws = [] → create env "AddWhitespaceAroundWordnZhChar" args kwargs = .error .valueError) ∧
      (ws ≠ [] → ¬ GoodWords ws → create env "AddWhitespaceAroundWordnZhChar" args kwargs = .error .attributeError)) ∧
    (∀ i, IsNumber v i → create env "AddWhitespaceAroundWordnZhChar" args kwargs = .error .typeError) ∧
    (∀ (pre : List Str) x post, v = .list (pre.map PyVal.str ++ x :: post) ∨ v = .tuple (pre.map PyVal.str ++ x :: post) →
      x = .none ∨ (∃ i, IsNumber x i) →
      create env "AddWhitespaceAroundWordnZhChar" args kwargs =
        .error (if (pre.filter fun w => w ≠ []).Nodup then .typeError else .attributeError)) := by
  obtain ⟨h1, h2, h3⟩ := create_eq (env := env) (name := "AddWhitespaceAroundWordnZhChar") (c := Builtin.aroundWord env)
    rfl wordParams rfl rfl (by decide) args kwargs
  have hini : ∀ r, Builtin.userWords v = r → (Builtin.aroundWord env).init [v, sh] =
      r >>= fun t => .ok (strOp (AddWhitespaceAroundWordnZhChar.transform env.σ t sh.truthy)) := by
    rintro _ rfl
    rfl
  refine ⟨fun ws short hw hs => ?_, fun i hi => ?_, fun pre x post hv hx => ?_⟩
  · have e : sh.truthy = short := by rw [Bool.eq_iff_iff, truthy_iff, hs]
    have hu := userWords_elements (elements_of hw)
    rw [e] at hini
    refine ⟨fun hg => ?_, fun hn => ?_, fun hn hg => ?_⟩
    · obtain ⟨t, ht⟩ := (C36_build ws).1.mpr hg
      refine ⟨_, h1 _ _ hb (hini (.ok t) (hu.trans ht)), fun s segs hs => ?_⟩
      obtain ⟨a, segs', g2, _, g1, _⟩ := C38_spaces env.σ ws t ht short s
      rw [C37_division_unique ws short s segs segs' hs g2]
      exact gives_str rfl rfl g1
    · exact h2 _ _ hb ((hini _ (hu.trans ((C36_build ws).2.1 hn))).trans rfl)
    · exact h2 _ _ hb ((hini _ (hu.trans ((C36_build ws).2.2 hn fun h => hg ⟨hn, h⟩))).trans rfl)
  · refine h2 _ _ hb ((hini (.error .typeError) ?_).trans rfl)
    cases hi <;> rfl
  · have hx' : x.asStr = .error .typeError := by
      rcases hx with rfl | ⟨i, hi⟩
      · rfl
      · cases hi <;> rfl
    have hel : v.elements = .ok (pre.map PyVal.str ++ x :: post) := by rcases hv with rfl | rfl <;> rfl
    obtain ⟨g1, g2⟩ := userWords_stuck hel hx'
    split
    · rename_i hn
      exact h2 _ _ hb ((hini _ (g1 hn)).trans rfl)
    · rename_i hn
      exact h2 _ _ hb ((hini _ (g2 hn)).trans rfl)

/-! ### Tokens and lengths -/

theorem transform_fails {c : OpClass} {cfg : List (Str × PyVal)} {run : Seq → Res (Seq × Aligner)} {s : Seq} {e : Exc}
    (ht : s.type = c.inputType) (h : run s = .error e) : (⟨c, cfg, run⟩ : Op).transform s = .error e := by
  unfold Op.transform
  dsimp only
  rw [if_neg (by rw [ht]; simp), h]
  rfl

/-- C84: `AddSosEos` adds numbers as well as texts. -/
theorem C84_sos_eos (env : Env) (args : List PyVal) (kwargs : List (Str × PyVal)) (v w : PyVal) (s e : Tok)
    (hb : bound sosEosParams args kwargs = some [v, w]) (hv : IsToken v s) (hw : IsToken w e) :
    CreatesMap (create env "AddSosEos" args kwargs) Seq.list Seq.list (fun l => l ≠ [] ∧ l.length < 2 ^ 32)
      fun l => s :: l ++ [e] := by
  obtain ⟨h1, _, _⟩ := create_eq (env := env) (name := "AddSosEos") (c := Builtin.sosEos env) rfl
    sosEosParams rfl rfl (by decide) args kwargs
  refine ⟨_, h1 _ (lstOp (AddSosEos.transform env.σ s e)) hb ?_, fun l hl => ?_⟩
  · show (v.asTok >>= _) = _
    rw [asTok_of hv, Except.bind_ok]
    show (w.asTok >>= _) = _
    rw [asTok_of hw]
    rfl
  · obtain ⟨a, h, _⟩ := C28_add_sos_eos env.σ s e l hl.1 hl.2
    exact gives_list rfl rfl h

/-- C84: `Pad` accepts any `maxlen`; with one that is no number every call fails, with a negative one too. -/
theorem C84_pad (env : Env) (args : List PyVal) (kwargs : List (Str × PyVal)) (v w : PyVal) (t : Tok)
    (hb : bound padParams args kwargs = some [v, w]) (hw : IsToken w t) :
    (∀ n : Nat, IsNumber v n → CreatesMap (create env "Pad" args kwargs) Seq.list Seq.list (fun l => l.length < 2 ^ 32)
      fun l => l.take n ++ List.replicate (n - l.length) t) ∧
    (∀ i, i < 0 → IsNumber v i → ∃ op, create env "Pad" args kwargs = .ok op ∧
      ∀ l, op.transform (.list l) = .error .overflowError) ∧
    ((¬ ∃ i, IsNumber v i) → ∃ op, create env "Pad" args kwargs = .ok op ∧
      ∀ l, op.transform (.list l) = .error .typeError) := by
  obtain ⟨h1, _, _⟩ := create_eq (env := env) (name := "Pad") (c := Builtin.pad env) rfl padParams rfl
    rfl (by decide) args kwargs
  have hc := h1 _ (lstOp fun l => v.asInt >>= fun n => Pad.transform env.σ n t l) hb (by
    show (w.asTok >>= _) = _
    rw [asTok_of hw]
    rfl)
  refine ⟨fun n hn => ⟨_, hc, fun l hl => ?_⟩, fun i hi hn => ⟨_, hc, fun l => ?_⟩, fun hn => ⟨_, hc, fun l => ?_⟩⟩
  · obtain ⟨a, h, _⟩ := C30_pad env.σ n t l (Or.inr hl)
    refine gives_list rfl rfl (a := a) ?_
    rw [(asInt_iff v n).mpr hn]
    exact h
  · refine transform_fails rfl ?_
    show ((v.asInt >>= fun n => Pad.transform env.σ n t l) >>= _) = _
    rw [(asInt_iff v i).mpr hn, Except.bind_ok, C30_negative env.σ i t l hi]
    rfl
  · refine transform_fails rfl ?_
    show ((v.asInt >>= fun n => Pad.transform env.σ n t l) >>= _) = _
    rw [asInt_none hn]
    rfl

/-- C84: `PureNum2Token` puts numbers as well as texts. -/
theorem C84_pure_num (env : Env) (args : List PyVal) (kwargs : List (Str × PyVal)) (v : PyVal) (t : Tok)
    (hb : bound pureNumParams args kwargs = some [v]) (hv : IsToken v t) :
    CreatesMap (create env "PureNum2Token" args kwargs) (fun l : List Str => Seq.list (l.map Tok.str)) Seq.list
      (fun _ => True) fun l => l.map fun s => if s ≠ [] ∧ ∀ c ∈ s, isDigit env.u c = true then t else .str s := by
  obtain ⟨h1, h2, h3⟩ := create_eq (env := env) (name := "PureNum2Token") (c := Builtin.pureNum env)
    rfl pureNumParams rfl rfl (by decide) args kwargs
  have hini : (Builtin.pureNum env).init [v] = .ok (lstOp (PureNum2Token.transform env.σ env.u t)) := by
    cases hv with
    | str s => rfl
    | num _ i h => cases h <;> rfl
  refine ⟨_, h1 _ _ hb hini, fun l _ => ?_⟩
  obtain ⟨a, h, _⟩ := C35_transform env.σ env.u t l
  exact gives_list rfl rfl h

/-- C84: `AddEndToken` checks its token. -/
theorem C84_end_token (env : Env) (args : List PyVal) (kwargs : List (Str × PyVal)) (v : PyVal)
    (hb : bound endTokenParams args kwargs = some [v]) (hn : v ≠ .none) (hs : ∀ s, v ≠ .str s) :
    create env "AddEndToken" args kwargs = .error .typeError := by
  obtain ⟨_, h2, _⟩ := create_eq (env := env) (name := "AddEndToken") (c := Builtin.endTok env)
    rfl endTokenParams rfl rfl (by decide) args kwargs
  refine h2 _ _ hb ?_
  cases v with
  | none => exact absurd rfl hn
  | str s => exact absurd rfl (hs s)
  | _ => rfl

/-! ### Indices -/

/-- The dict with its values as numbers. -/
inductive NumbersOf : List (Str × PyVal) → List (Str × Int) → Prop
  | nil : NumbersOf [] []
  | cons (k : Str) (v : PyVal) (i : Int) (d : List (Str × PyVal)) (d' : List (Str × Int)) : IsNumber v i →
    NumbersOf d d' → NumbersOf ((k, v) :: d) ((k, i) :: d')

theorem asIndex_numbers {d : List (Str × PyVal)} {d' : List (Str × Int)} (h : NumbersOf d d') :
    (PyVal.dict d).asIndex = .ok d' := by
  have key : (d.mapM fun kv => (kv.2.asInt >>= fun i => pure (kv.1, i) : Res (Str × Int))) = .ok d' := by
    induction h with
    | nil => rfl
    | cons k v i d d' hv _ ih =>
      rw [List.mapM_cons, ih]
      dsimp only
      rw [(asInt_iff v i).mpr hv]
      rfl
  unfold PyVal.asIndex
  dsimp only
  rw [key]

theorem asIndex_refused {d : List (Str × PyVal)} (h : ∃ kv ∈ d, ¬ ∃ i, IsNumber kv.2 i) :
    (PyVal.dict d).asIndex = .error (PyVal.indexFault (d.map Prod.snd)) := by
  have key : (d.mapM fun kv => (kv.2.asInt >>= fun i => pure (kv.1, i) : Res (Str × Int))) = .error .typeError := by
    induction d with
    | nil => obtain ⟨_, h, _⟩ := h; cases h
    | cons kv d ih =>
      rw [List.mapM_cons]
      by_cases hk : ∃ i, IsNumber kv.2 i
      · have hd : ∃ kv ∈ d, ¬ ∃ i, IsNumber kv.2 i := by
          obtain ⟨x, hx, hn⟩ := h
          rcases List.mem_cons.mp hx with rfl | hx
          · exact absurd hk hn
          · exact ⟨x, hx, hn⟩
        obtain ⟨i, hi⟩ := hk
        rw [(asInt_iff _ i).mpr hi, ih hd]
        rfl
      · rw [asInt_none hk]
        rfl
  unfold PyVal.asIndex
  dsimp only
  rw [key]

theorem validate_error (d : List (Str × Int)) (h : ¬ Continuous d) : validateContinuity d = .error .valueError := by
  have h' : validateContinuity d ≠ .ok () := fun g => h ((C31_continuity d).mp g)
  unfold validateContinuity at h' ⊢
  dsimp only at h' ⊢
  split
  · rfl
  · rename_i hl
    rw [if_neg hl] at h'
    split
    · rename_i h1 h2
      rw [h1, h2] at h'
      dsimp only at h'
      split
      · rename_i hc
        rw [if_pos hc] at h'
        exact absurd rfl h'
      · rfl
    · rfl

/-- C84: `Token2Index` with numbers that are truth values, with what is no dict, and with an `unk_token` that is no
text. -/
theorem C84_token2index (env : Env) (args : List PyVal) (kwargs : List (Str × PyVal)) (v u : PyVal)
    (hb : bound token2indexParams args kwargs = some [v, u]) :
    (∀ d d', v = .dict d → NumbersOf d d' → (d'.map Prod.fst).Nodup →
      (∀ unk, u = .str unk → Continuous d' → unk ∈ d'.map Prod.fst → ∃ op, create env "Token2Index" args kwargs = .ok op ∧
        ∀ (l : List Tok) (out : List Int), out.length = l.length → (∀ p ∈ l.zip out, IndexOf d' unk p.1 p.2) →
          Gives op (.list l) (.list (out.map Tok.int))) ∧
      (∀ unk, u = .str unk → Continuous d' → unk ∉ d'.map Prod.fst →
        create env "Token2Index" args kwargs = .error .keyError) ∧
      (¬ Continuous d' → create env "Token2Index" args kwargs = .error .valueError) ∧
      ((∀ unk, u ≠ .str unk) → Continuous d' → ¬ Unhashable u →
        create env "Token2Index" args kwargs = .error .keyError) ∧
      (Unhashable u → Continuous d' → create env "Token2Index" args kwargs = .error .typeError)) ∧
    (∀ d, v = .dict d → (∃ kv ∈ d, ¬ ∃ i, IsNumber kv.2 i) → ∃ e, create env "Token2Index" args kwargs = .error e) ∧
    ((∀ d, v ≠ .dict d) → create env "Token2Index" args kwargs = .error .attributeError) := by
  obtain ⟨h1, h2, h3⟩ := create_eq (env := env) (name := "Token2Index") (c := Builtin.token2index env) rfl
    token2indexParams rfl rfl (by decide) args kwargs
  refine ⟨?_, ?_, ?_⟩
  · rintro d d' rfl hd hnd
    have hix := asIndex_numbers hd
    have hini : ∀ unk r, u = .str unk → Token2Index.init d' unk = r → (Builtin.token2index env).init [.dict d, u] =
        r >>= fun _ => .ok (lstOp (Token2Index.transform env.σ d' unk)) := by
      rintro unk r rfl rfl
      show ((PyVal.dict d).asIndex >>= _) = _
      rw [hix, Except.bind_ok]
      rfl
    have hini' : (∀ unk, u ≠ .str unk) → (Builtin.token2index env).init [.dict d, u] =
        (validateContinuity d' >>= fun _ => if u.hashable then .error .keyError else .error .typeError) := by
      intro hu
      show ((PyVal.dict d).asIndex >>= _) = _
      rw [hix, Except.bind_ok]
      cases u with
      | str s => exact absurd rfl (hu s)
      | _ => rfl
    refine ⟨fun unk hu g1 g2 => ?_, fun unk hu g1 g2 => ?_, fun g => ?_, fun hu g1 g2 => ?_, fun g1 g2 => ?_⟩
    · have hok := (C31_init d' unk).1.mpr ⟨g1, g2⟩
      refine ⟨_, h1 _ _ hb (hini unk _ hu hok), fun l out hl ho => ?_⟩
      obtain ⟨out', a, h, hl', _, _, hun, _⟩ := C31_transform env.σ d' unk hnd hok l
      have : out = out' := by
        refine List.ext_getElem (by rw [hl, hl']) fun i hi hi' => ?_
        have hm : (l[i]'(hl ▸ hi), out'[i]) ∈ l.zip out' := by
          refine List.mem_of_getElem? (i := i) (List.getElem?_zip_eq_some.mpr ⟨?_, ?_⟩) <;> simp
        have hm' : (l[i]'(hl ▸ hi), out[i]) ∈ l.zip out := by
          refine List.mem_of_getElem? (i := i) (List.getElem?_zip_eq_some.mpr ⟨?_, ?_⟩) <;> simp
        exact (hun _ hm).2 _ (ho _ hm')
      rw [this]
      exact gives_list rfl rfl h
    · exact h2 _ _ hb ((hini unk _ hu ((C31_init d' unk).2.2 g1 g2)).trans rfl)
    · by_cases hu : ∃ unk, u = .str unk
      · obtain ⟨unk, hu⟩ := hu
        exact h2 _ _ hb ((hini unk _ hu ((C31_init d' unk).2.1 g)).trans rfl)
      · refine h2 _ _ hb ((hini' fun unk e => hu ⟨unk, e⟩).trans ?_)
        rw [validate_error d' g]
        rfl
    · refine h2 _ _ hb ((hini' hu).trans ?_)
      rw [(C31_continuity d').mpr g1, Except.bind_ok]
      have : u.hashable = true := by
        cases hh : u.hashable with
        | true => rfl
        | false => exact absurd ((unhashable_iff u).mp hh) g2
      rw [this]
      rfl
    · refine h2 _ _ hb ((hini' ?_).trans ?_)
      · rintro unk rfl
        cases g1
      · rw [(C31_continuity d').mpr g2, Except.bind_ok, (unhashable_iff u).mpr g1]
        rfl
  · rintro d rfl hd
    refine ⟨_, h2 _ (PyVal.indexFault (d.map Prod.snd)) hb ?_⟩
    show ((PyVal.dict d).asIndex >>= _) = _
    rw [asIndex_refused hd]
    rfl
  · intro hv
    refine h2 _ _ hb ?_
    cases v with
    | dict d => exact absurd rfl (hv d)
    | _ => rfl

/-- C84: the same for `Token2IndexwithHash`. -/
theorem C84_token2index_hash (env : Env) (args : List PyVal) (kwargs : List (Str × PyVal)) (v : PyVal)
    (hb : bound token2indexHashParams args kwargs = some [v]) :
    (∀ d d', v = .dict d → NumbersOf d d' → (d'.map Prod.fst).Nodup →
      (Continuous d' → ∃ op, create env "Token2IndexwithHash" args kwargs = .ok op ∧
        ∀ l : List Str, ∃ idx : Str → Int, Gives op (.list (l.map Tok.str)) (.list (l.map fun s => .int (idx s))) ∧
          (∀ s i, (s, i) ∈ d' → idx s = i) ∧
          ∀ s, s ∉ d'.map Prod.fst →
            idx s = ((Murmur.x86_32 (s.flatMap String.utf8EncodeChar) 0#32).toNat % d'.length : Nat)) ∧
      (¬ Continuous d' → create env "Token2IndexwithHash" args kwargs = .error .valueError)) ∧
    (∀ d, v = .dict d → (∃ kv ∈ d, ¬ ∃ i, IsNumber kv.2 i) →
      ∃ e, create env "Token2IndexwithHash" args kwargs = .error e) ∧
    ((∀ d, v ≠ .dict d) → create env "Token2IndexwithHash" args kwargs = .error .attributeError) := by
  obtain ⟨h1, h2, h3⟩ := create_eq (env := env) (name := "Token2IndexwithHash") (c := Builtin.token2indexHash env) rfl
    token2indexHashParams rfl rfl (by decide) args kwargs
  refine ⟨?_, ?_, ?_⟩
  · rintro d d' rfl hd hnd
    have hini : ∀ r, Token2IndexwithHash.init d' = r → (Builtin.token2indexHash env).init [.dict d] =
        r >>= fun _ => .ok (lstOp (Token2IndexwithHash.transform env.σ d')) := by
      rintro _ rfl
      show ((PyVal.dict d).asIndex >>= _) = _
      rw [asIndex_numbers hd, Except.bind_ok]
      rfl
    refine ⟨fun g => ?_, fun g => h2 _ _ hb ((hini _ (validate_error d' g)).trans rfl)⟩
    have hok : Token2IndexwithHash.init d' = .ok () := (C31_continuity d').mpr g
    refine ⟨_, h1 _ _ hb (hini _ hok), fun l => ?_⟩
    obtain ⟨idx, a, g1, g2, g3, _⟩ := C32_transform env.σ d' hnd hok l
    exact ⟨idx, gives_list rfl rfl g1, g2, g3⟩
  · rintro d rfl hd
    refine ⟨_, h2 _ (PyVal.indexFault (d.map Prod.snd)) hb ?_⟩
    show ((PyVal.dict d).asIndex >>= _) = _
    rw [asIndex_refused hd]
    rfl
  · intro hv
    refine h2 _ _ hb ?_
    cases v with
    | dict d => exact absurd rfl (hv d)
    | _ => rfl

/-! ### Subwords -/

theorem str_eq_iff (w : Str) (v : PyVal) : PyVal.eq (.str w) v = true ↔ v = .str w := by
  cases v with
  | str s =>
    show (w == s) = true ↔ _
    rw [beq_iff_eq]
    exact ⟨fun h => h ▸ rfl, fun h => by injection h with h; exact h.symm⟩
  | _ => exact ⟨fun h => (by cases h), fun h => (by cases h)⟩

open Classical in
theorem has_askable {v : PyVal} (h : Askable v) : v.has = .ok fun w => decide (InValue v w) := by
  have hl : ∀ (l : List PyVal) w, l.any (PyVal.eq (.str w)) = @decide (PyVal.str w ∈ l) (propDecidable _) := by
    intro l w
    rw [Bool.eq_iff_iff, List.any_eq_true, @decide_eq_true_iff _ (propDecidable _)]
    constructor
    · rintro ⟨x, hx, he⟩
      rw [str_eq_iff] at he
      exact he ▸ hx
    · intro h
      exact ⟨_, h, (str_eq_iff _ _).mpr rfl⟩
  cases v with
  | dict d =>
    refine congrArg Except.ok (funext fun w => ?_)
    rw [Bool.eq_iff_iff, List.contains_iff_mem, decide_eq_true_iff]
    rfl
  | list l => exact congrArg Except.ok (funext fun w => hl l w)
  | tuple l => exact congrArg Except.ok (funext fun w => hl l w)
  | str s =>
    refine congrArg Except.ok (funext fun w => ?_)
    rw [Bool.eq_iff_iff, decide_eq_true_iff, decide_eq_true_iff]
    constructor
    · rintro ⟨a, b, h⟩
      exact ⟨a, b, h.symm⟩
    · rintro ⟨a, b, h⟩
      exact ⟨a, b, h.symm⟩
  | none => exact absurd h id
  | bool b => exact absurd h id
  | int i => exact absurd h id

theorem has_none {v : PyVal} (h : ¬ Askable v) : v.has = .error .typeError := by
  cases v with
  | none => rfl
  | bool b => rfl
  | int i => rfl
  | _ => exact absurd trivial h

theorem unknown_words (unk : Str) (k : Int) (l : List Str) :
    (l.flatMap fun w => (if k < (w.length : Int) then [unk] else []).map Tok.str) =
      (l.filter fun w => k < w.length).map fun _ => Tok.str unk := by
  induction l with
  | nil => rfl
  | cons w l ih =>
    rw [List.flatMap_cons, ih]
    by_cases hw : k < (w.length : Int)
    · rw [if_pos hw, List.filter_cons_of_pos (by simpa using hw)]
      rfl
    · rw [if_neg hw, List.filter_cons_of_neg (by simpa using hw)]
      rfl

/-- C84: `SpanSubwords` accepts any `vocab` and `maxlen_per_token`. Lists, tuples and texts work as vocabularies;
other values fail at the first word that has to be looked up, lengths that are no numbers at the first word. -/
theorem C84_subwords (env : Env) (args : List PyVal) (kwargs : List (Str × PyVal)) (v n : PyVal) (unk : Str)
    (hb : bound subwordParams args kwargs = some [v, .str unk, n]) :
    ∃ op, create env "SpanSubwords" args kwargs = .ok op ∧
      (∀ k, IsNumber n k → Askable v →
        ∀ (l : List Str) (subs : Str → List Str), (∀ w ∈ l, PiecesIn v unk k w (subs w)) →
          Gives op (.list (l.map Tok.str)) (.list (l.flatMap fun w => (subs w).map Tok.str))) ∧
      (∀ k, IsNumber n k → ¬ Askable v →
        (∀ l : List Str, (∀ w ∈ l, w = [] ∨ k < w.length) →
          Gives op (.list (l.map Tok.str)) (.list ((l.filter fun w => k < w.length).map fun _ => .str unk))) ∧
        (∀ l : List Tok, (∃ w, .str w ∈ l ∧ w ≠ [] ∧ (w.length : Int) ≤ k) →
          op.transform (.list l) = .error .typeError)) ∧
      ((¬ ∃ k, IsNumber n k) → Gives op (.list []) (.list []) ∧
        ∀ l, l ≠ [] → op.transform (.list l) = .error .typeError) := by
  obtain ⟨h1, h2, h3⟩ := create_eq (env := env) (name := "SpanSubwords") (c := Builtin.spanSubwords env)
    rfl subwordParams rfl rfl (by decide) args kwargs
  refine ⟨_, h1 _ (lstOp (Builtin.spanSubwordsRun env v unk n)) hb rfl, fun k hk hv l subs hs => ?_, fun k hk hv => ?_,
    fun hn => ?_⟩
  · have e : Builtin.spanSubwordsRun env v unk n (l.map Tok.str) =
        SpanSubwords.transform env.σ (fun w => @decide (InValue v w) (Classical.propDecidable _)) unk k (l.map Tok.str) := by
      unfold Builtin.spanSubwordsRun
      rw [(asInt_iff n k).mpr hk, has_askable hv]
    obtain ⟨a, h, _⟩ := C34_transform env.σ _ unk k l subs fun w hw => by
      rcases hs w hw with ⟨g1, rs, g2, g3⟩ | ⟨g1, g2⟩
      · rw [g3]; exact C33_segmentation _ _ _ _ _ g1 g2
      · rw [g2]; exact C33_unknown _ _ _ _ g1
    exact gives_list rfl rfl (e.trans h)
  · have e : ∀ l, Builtin.spanSubwordsRun env v unk n l =
        if l.any (Builtin.looksUp k) then .error .typeError
        else SpanSubwords.transform env.σ (fun _ => false) unk k l := by
      intro l
      unfold Builtin.spanSubwordsRun
      rw [(asInt_iff n k).mpr hk, has_none hv]
    refine ⟨fun l hl => ?_, fun l hl => ?_⟩
    · obtain ⟨a, h, _⟩ := C34_transform env.σ (fun _ => false) unk k l (fun w => if k < w.length then [unk] else [])
        fun w hw => by
          split
          · rename_i hlt
            exact C33_unknown _ _ _ _ (Or.inl hlt)
          · rename_i hlt
            have hw : w = [] := (hl w hw).resolve_right hlt
            subst hw
            exact C33_segmentation _ _ _ _ [] (by simpa using hlt) rfl
      rw [← unknown_words]
      refine gives_list rfl rfl (a := a) ((e _).trans ?_)
      rw [if_neg, h]
      simp only [List.any_map, List.any_eq_true, not_exists, not_and]
      intro w hw
      rcases hl w hw with rfl | hlt
      · simp [Builtin.looksUp]
      · simp only [Function.comp_apply, Builtin.looksUp, Bool.and_eq_true, decide_eq_true_eq, not_and]
        intro _
        omega
    · obtain ⟨w, hw, hne, hle⟩ := hl
      refine transform_fails rfl ?_
      show (Builtin.spanSubwordsRun env v unk n l >>= _) = _
      rw [e, if_pos]
      · rfl
      · rw [List.any_eq_true]
        refine ⟨_, hw, ?_⟩
        cases w with
        | nil => exact absurd rfl hne
        | cons c w => simpa [Builtin.looksUp] using hle
  · refine ⟨?_, fun l hl => ?_⟩
    · obtain ⟨a, h, _⟩ := C34_transform env.σ (fun _ => false) unk 0 [] (fun _ => []) (fun _ h => by cases h)
      refine gives_list rfl rfl (a := a) ?_
      unfold Builtin.spanSubwordsRun
      rw [asInt_none hn]
      exact h
    · refine transform_fails rfl ?_
      show (Builtin.spanSubwordsRun env v unk n l >>= _) = _
      unfold Builtin.spanSubwordsRun
      rw [asInt_none hn]
      cases l with
      | nil => exact absurd rfl hl
      | cons t l => rfl

/-! ### Replacing -/

/-- C84: `ReplaceAwithB` accepts any `b`; what is no text fails as soon as there is something to replace. The pattern
has to be a text. -/
theorem C84_replace (env : Env) (he : env.Sane) (args : List PyVal) (kwargs : List (Str × PyVal)) (v w : PyVal)
    (hb : bound replaceParams args kwargs = some [v, w]) :
    (∀ p m, v = .str p → env.compile p = some m → (∀ s, w ≠ .str s) → ∃ op, create env "ReplaceAwithB" args kwargs = .ok op ∧
      (∀ s, Scan m s 0 [] → Gives op (.str s) (.str s)) ∧
      ∀ s x ms, Scan m s 0 (x :: ms) → op.transform (.str s) = .error .typeError) ∧
    ((∀ s, v ≠ .str s) → create env "ReplaceAwithB" args kwargs = .error .typeError) := by
  obtain ⟨h1, h2, h3⟩ := create_eq (env := env) (name := "ReplaceAwithB") (c := Builtin.replace env) rfl
    replaceParams rfl rfl (by decide) args kwargs
  refine ⟨?_, fun hv => ?_⟩
  · rintro p m rfl hm hw
    have hini : (Builtin.replace env).init [.str p, w] = .ok (strOp (Builtin.replaceNoStr env m)) := by
      show Builtin.replaceInit env [.str p, w] = _
      simp only [Builtin.replaceInit, PyVal.asStr, hm, Except.bind_ok]
      cases w with
      | str s => exact absurd rfl (hw s)
      | _ => rfl
    refine ⟨_, h1 _ _ hb hini, fun s hs => ?_, fun s x ms hs => ?_⟩
    · obtain ⟨a, h, _⟩ := C25_replace env.σ m [' '] s (he.sound p m hm s) [] hs
      refine gives_str rfl rfl (a := a) ?_
      unfold Builtin.replaceNoStr
      rw [h, Except.bind_ok]
      have hno : ¬ (s.length > 0 ∧ (m s 0).isSome) := by
        rintro ⟨g1, g2⟩
        cases hs with
        | atEnd _ g => omega
        | noMatch _ _ g => rw [g] at g2; cases g2
      show (if _ then _ else _) = _
      rw [if_neg hno]
      simp [replaceMatches, pure, Except.pure]
    · obtain ⟨a, h, _⟩ := C25_replace env.σ m [' '] s (he.sound p m hm s) _ hs
      refine transform_fails rfl ?_
      show (Builtin.replaceNoStr env m s >>= _) = _
      unfold Builtin.replaceNoStr
      rw [h, Except.bind_ok]
      cases hs with
      | match_ _ i j _ g1 g2 g3 =>
        dsimp only
        rw [if_pos ⟨g1, by rw [g2]; rfl⟩]
        rfl
  · refine h2 _ _ hb ?_
    cases v with
    | str s => exact absurd rfl (hv s)
    | _ => rfl

/-! ### The base classes -/

/-- C74: `Operator` itself cannot be made; the other base classes can, without arguments, and their operators fail:
`AddWhitespaceAroundCharacter` on texts with characters, the others on all texts. -/
theorem C74_base_classes (env : Env) :
    (∀ args kwargs, create env "Operator" args kwargs = .error .typeError) ∧
    (∃ op, create env "AddWhitespaceAroundCharacter" [] [] = .ok op ∧ Gives op (.str []) (.str []) ∧
      ∀ s, s ≠ [] → op.transform (.str s) = .error .notImplementedError) ∧
    (∃ op, create env "PatternRecognizer" [] [] = .ok op ∧ op.transform (.str []) = .error .typeError ∧
      ∀ s, s ≠ [] → op.transform (.str s) = .error .attributeError) ∧
    (∃ op, create env "Tokenizer" [] [] = .ok op ∧ ∀ s, op.transform (.str s) = .error .notImplementedError) ∧
    ∀ name ∈ baseNames, ∀ args kwargs, args ≠ [] ∨ kwargs ≠ [] → create env name args kwargs = .error .typeError := by
  have hop : ∀ args kwargs, create env "Operator" args kwargs = .error .typeError := by
    intro args kwargs
    obtain ⟨_, h2, h3⟩ := create_eq (env := env) (name := "Operator") (c := Builtin.operator) rfl [] rfl rfl (by decide)
      args kwargs
    cases hb : bound [] args kwargs with
    | none => exact h3 hb
    | some vals => exact h2 vals _ hb rfl
  refine ⟨hop, ⟨_, (create_simple rfl).1, ?_, fun s hs => ?_⟩, ⟨_, (create_simple rfl).1, ?_, fun s hs => ?_⟩,
    ⟨_, (create_simple rfl).1, fun s => ?_⟩, ?_⟩
  · obtain ⟨a, h, _⟩ := C17_around env.σ (fun _ => false) []
    exact gives_str (f := fun s => charwiseTransform env.σ (fun _ => .error .notImplementedError) s s fun g n =>
      Aligner.ofStrEdit env.σ s g n AddWhitespaceAroundChar.fwd AddWhitespaceAroundChar.bwd) rfl rfl h
  · cases s with
    | nil => exact absurd rfl hs
    | cons c s => rfl
  · rfl
  · cases s with
    | nil => exact absurd rfl hs
    | cons c s => rfl
  · rfl
  · intro name hn args kwargs h
    simp only [baseNames, List.mem_cons, List.not_mem_nil, or_false] at hn
    rcases hn with rfl | rfl | rfl | rfl
    · exact hop _ _
    · exact (create_simple rfl).2 _ _ h
    · exact (create_simple rfl).2 _ _ h
    · exact (create_simple rfl).2 _ _ h

/-! ### examples -/

/-- A tuple of words, with the shortest match asked for by a number. -/
example (env : Env) : ∃ op, create env "CustomWordTokenizer" [.tuple [.str "ab".toList, .str "abc".toList], .int 1] [] = .ok op ∧
    ∀ s segs, WordSegs ["ab".toList, "abc".toList] true s segs → Gives op (.str s) (.list (segs.map Tok.str)) :=
  ((C84_custom_tokenizer env _ _ _ _ rfl).1 _ true (.tuple ["ab".toList, "abc".toList])
    ⟨fun _ h => (by cases h), fun _ => rfl⟩).1 (by unfold GoodWords; decide)

/-- A text stands for its characters, and "aa" for a duplicate. -/
example (env : Env) : (∃ op, create env "AddWhitespaceAroundWordnZhChar" [.str "ab".toList] [] = .ok op ∧
    ∀ s segs, WordSegs [['a'], ['b']] false s segs → Gives op (.str s) (.str (segs.flatMap (spaced [['a'], ['b']])))) ∧
    create env "AddWhitespaceAroundWordnZhChar" [.str "aa".toList] [] = .error .attributeError :=
  ⟨((C84_around_words env _ _ _ _ rfl).1 _ false (.str "ab".toList)
      ⟨fun h => (by cases h), fun h => absurd .false h⟩).1 (by unfold GoodWords; decide),
   ((C84_around_words env _ _ _ _ rfl).1 _ false (.str "aa".toList)
      ⟨fun h => (by cases h), fun h => absurd .false h⟩).2.2 (by decide) (by unfold GoodWords; decide)⟩

example (env : Env) : create env "CustomWordTokenizer" [.list [.str "a".toList, .int 1]] [] = .error .typeError ∧
    create env "CustomWordTokenizer" [.list [.str "a".toList, .str "a".toList, .none]] [] = .error .attributeError :=
  ⟨(C84_custom_tokenizer env _ _ _ _ rfl).2.2 ["a".toList] (.int 1) [] (Or.inl rfl) (Or.inr ⟨1, .int 1⟩),
   (C84_custom_tokenizer env _ _ _ _ rfl).2.2 ["a".toList, "a".toList] .none [] (Or.inl rfl) (Or.inl rfl)⟩

example (env : Env) : CreatesMap (create env "AddSosEos" [.int 101, .bool true] []) Seq.list Seq.list
    (fun l => l ≠ [] ∧ l.length < 2 ^ 32) fun l => .int 101 :: l ++ [.int 1] :=
  C84_sos_eos env _ _ _ _ _ _ rfl (.num _ _ (.int 101)) (.num _ _ .true)

/-- `Pad("5")` is made and never works. -/
example (env : Env) : ∃ op, create env "Pad" [.str "5".toList] [] = .ok op ∧
    ∀ l, op.transform (.list l) = .error .typeError :=
  (C84_pad env _ _ _ _ _ rfl (.str _)).2.2 fun ⟨_, h⟩ => by cases h

example (env : Env) : ∃ op, create env "Pad" [.int (-1), .int 0] [] = .ok op ∧
    ∀ l, op.transform (.list l) = .error .overflowError :=
  (C84_pad env _ _ _ _ _ rfl (.num _ _ (.int 0))).2.1 (-1) (by decide) (.int _)

example (env : Env) : CreatesMap (create env "PureNum2Token" [.int 7] []) (fun l : List Str => Seq.list (l.map Tok.str))
    Seq.list (fun _ => True) fun l => l.map fun s => if s ≠ [] ∧ ∀ c ∈ s, isDigit env.u c = true then .int 7 else .str s :=
  C84_pure_num env _ _ _ _ rfl (.num _ _ (.int 7))

example (env : Env) : create env "AddEndToken" [.int 7] [] = .error .typeError :=
  C84_end_token env _ _ _ rfl (fun h => by cases h) fun _ h => by cases h

/-- `Token2Index({"a": False, "b": True}, [])`: a list is no key. -/
example (env : Env) : create env "Token2Index"
    [.dict [("a".toList, .bool false), ("b".toList, .bool true)], .list []] [] = .error .typeError :=
  ((C84_token2index env _ _ _ _ rfl).1 _ [("a".toList, 0), ("b".toList, 1)] rfl
    (.cons _ _ _ _ _ .false (.cons _ _ _ _ _ .true .nil)) (by decide)).2.2.2.2 (.list _) ((C31_continuity _).mp rfl)

example (env : Env) : create env "Token2Index" [.list []] [] = .error .attributeError ∧
    create env "Token2IndexwithHash" [.int 3] [] = .error .attributeError :=
  ⟨(C84_token2index env _ _ _ _ rfl).2.2 fun _ h => (by cases h),
   (C84_token2index_hash env _ _ _ rfl).2.2 fun _ h => by cases h⟩

/-- A text as vocabulary: every part of it is known. -/
example : InValue (.str "under".toList) "nd".toList ∧ Askable (.str "under".toList) :=
  ⟨⟨"u".toList, "er".toList, rfl⟩, trivial⟩

/-- `SpanSubwords(None)` works until a word has to be looked up. -/
example (env : Env) : ∃ op, create env "SpanSubwords" [.none, .str "U".toList, .int 1] [] = .ok op ∧
    Gives op (.list [.str "abc".toList, .str []]) (.list [.str "U".toList]) ∧
    op.transform (.list [.str "abc".toList, .str "a".toList]) = .error .typeError := by
  obtain ⟨op, h1, _, h2, _⟩ := C84_subwords env [.none, .str "U".toList, .int 1] [] _ _ _ rfl
  obtain ⟨g1, g2⟩ := h2 1 (.int 1) id
  exact ⟨op, h1, g1 ["abc".toList, []] (by decide), g2 _ ⟨"a".toList, by decide, by decide, by decide⟩⟩

/-- `ReplaceAwithB("x", 5)`. -/
example : ∃ op, create exEnv "ReplaceAwithB" [.str "x".toList, .int 5] [] = .ok op ∧
    Gives op (.str "ab".toList) (.str "ab".toList) ∧ op.transform (.str "axb".toList) = .error .typeError := by
  obtain ⟨op, h1, h2, h3⟩ := (C84_replace exEnv exEnv_sane [.str "x".toList, .int 5] [] _ _ rfl).1 "x".toList _ rfl rfl
    (fun _ h => by cases h)
  exact ⟨op, h1, h2 _ (.noMatch 0 (by decide) (by decide)), h3 "axb".toList (1, 2) [] (.match_ 0 1 2 _ (by decide) (by decide)
    (.noMatch 2 (by decide) (by decide)))⟩

example (env : Env) : create env "Operator" [] [] = .error .typeError ∧
    create env "Tokenizer" [.int 1] [] = .error .typeError :=
  ⟨(C74_base_classes env).1 _ _, (C74_base_classes env).2.2.2.2 _ (by decide) _ _ (Or.inl (by decide))⟩

end Uttut
