import Verif.Spec.OwnLabels
import Verif.Props.Rename
import Verif.Props.Extend

/-!
C107: operators written by users keep labels in order and do not look at the numbers of the classes, if their label
functions do so.
-/

namespace Uttut

open Spec

/-- An operator made from a built-in class, or from a class derived from `Tokenizer`, `PatternRecognizer` or
`AddWhitespaceAroundCharacter` with label functions that have the property `P`. -/
inductive MadeWith (env : Env) (P : (List Int → Nat → List Int) → Prop) (op : Op) : Prop
  | builtin (h : IsBuiltin env op)
  | tokenizer (F B : List Int → Nat → List Int) (hF : P F) (hB : P B) (c : UserClass (Str → Res (List Str)))
      (args : List PyVal) (kwargs : List (Str × PyVal))
      (h : (c.tokenizer env (labelFunction F) (labelFunction B)).call args kwargs = .ok op)
  | recognizer (F B : List Int → Nat → List Int) (hF : P F) (hB : P B) (c : UserClass (Matcher × Str))
      (args : List PyVal) (kwargs : List (Str × PyVal))
      (h : (c.recognizer env (labelFunction F) (labelFunction B)).call args kwargs = .ok op)
  | around (c : UserClass (Char → Res Bool)) (args : List PyVal) (kwargs : List (Str × PyVal))
      (h : (c.around env).call args kwargs = .ok op)

/-! ### order -/

theorem ordered_slim {F : List Int → Nat → List Int} (h : Ordered F) : Slim (labelFunction F) := by
  intro ls n ys hy
  injection hy with hy
  subst hy
  exact ⟨h.order ls n, Nat.le_of_eq (h.length ls n)⟩

theorem own_around {env : Env} {c : UserClass (Char → Res Bool)} {args : List PyVal} {kwargs : List (Str × PyVal)}
    {op : Op} (hc : (c.around env).call args kwargs = .ok op) {s t : Seq} {a : Aligner} (h : op.transform s = .ok (t, a)) :
    ∃ u v out, s = .str u ∧ AddWhitespaceAroundChar.transform env.σ v u = .ok (out, a) := by
  obtain ⟨vals, valid, _, h2, h3, h4⟩ := user_call hc
  obtain ⟨u, rfl⟩ := transform_str_of_ok (by rw [h3]; rfl) h
  have hok : ∀ ch ∈ u, ∃ r, valid ch = .ok r := by
    refine Classical.byContradiction fun hno => ?_
    obtain ⟨pre, ch, post, e, rfl, hpre, he⟩ := first_raise valid u hno
    rw [transform_strOp h3 rfl rfl h4] at h
    unfold charwiseTransform at h
    rw [ownAdd_error _ pre ch post (fun y hy => ?_) e (by rw [he]; rfl)] at h
    · cases h
    · obtain ⟨r, hr⟩ := hpre y hy
      exact ⟨_, by rw [hr]; rfl⟩
  let v : Char → Bool := fun ch => match valid ch with
    | .ok r => r
    | .error _ => false
  have hv : ∀ ch ∈ u, valid ch = .ok (v ch) := by
    intro ch hch
    obtain ⟨r, hr⟩ := hok ch hch
    show valid ch = .ok (match valid ch with
      | .ok r => r
      | .error _ => false)
    rw [hr]
  rw [transform_strOp h3 rfl rfl h4] at h
  obtain ⟨⟨out, a'⟩, h5, h6⟩ := bind_eq_ok h
  injection h6 with h6
  injection h6 with e1 e2
  subst e1; subst e2
  refine ⟨u, v, out, rfl, ?_⟩
  unfold charwiseTransform at h5
  unfold AddWhitespaceAroundChar.transform charwiseTransform
  rw [ownAdd_congr _ (AddWhitespaceAroundChar.newValue v) u (fun ch hch => by rw [hv ch hch]; rfl)] at h5
  exact h5

theorem own_orderly {env : Env} (he : env.Sane) {op : Op} (hop : MadeWith env Ordered op) {s t : Seq} {a : Aligner}
    (h : op.transform s = .ok (t, a)) : Orderly a := by
  have hr := transform_run h
  cases hop with
  | builtin hb =>
    obtain ⟨h1, h2⟩ := C89_operator env he op hb s t a h
    exact ⟨h1, h2⟩
  | tokenizer F B hF hB c args kwargs hc =>
    obtain ⟨_, tokenize, _, _, _, h4⟩ := user_call hc
    rw [h4] at hr
    refine tokOp_orderly (fun s out a h => ?_) s t a hr
    obtain ⟨toks, _, h⟩ := bind_eq_ok h
    exact orderly_tokenizer (ordered_slim hF) (ordered_slim hB) h
  | recognizer F B hF hB c args kwargs hc =>
    obtain ⟨_, mt, _, _, _, h4⟩ := user_call hc
    rw [h4] at hr
    exact strOp_orderly (fun s out a h => orderly_pattern (ordered_slim hF) (ordered_slim hB) h) s t a hr
  | around c args kwargs hc =>
    obtain ⟨u, v, out, _, h1⟩ := own_around hc h
    exact orderly_around env.σ v h1

/-- C107: an operator derived from one of the three base classes keeps labels in their order, in both directions, if its
two label functions do so for each replaced text. -/
theorem C107_order (env : Env) (he : env.Sane) (op : Op) (hop : MadeWith env Ordered op) (s t : Seq) (a : Aligner)
    (h : op.transform s = .ok (t, a)) :
    (∀ ls ys, a.transform ls = .ok ys → LabelsInOrder ls ys) ∧
      ∀ ys ls, a.inverseTransform ys = .ok ls → LabelsInOrder ys ls :=
  ⟨(own_orderly he hop h).fwd, (own_orderly he hop h).bwd⟩

theorem runs_own_orderly {env : Env} (he : env.Sane) {ops : List Op} {s : Seq} {rs : List (Seq × Aligner)}
    (h : Runs ops s rs) (hb : ∀ op ∈ ops, MadeWith env Ordered op) : ∀ a ∈ rs.map Prod.snd, Orderly a := by
  induction h with
  | nil s => intro a ha; cases ha
  | @cons op ops s t a rs h1 h2 ih =>
    intro b hb'
    rcases List.mem_cons.mp hb' with rfl | hm
    · exact own_orderly he (hb op (by simp)) h1
    · exact ih (fun o ho => hb o (by simp [ho])) b hm

/-- C107: so does every pipe of such operators and built-in ones. -/
theorem C107_order_pipe (env : Env) (he : env.Sane) (p : Pipe) (hp : ∀ op ∈ p.steps, MadeWith env Ordered op) (s o : Seq)
    (as : List Aligner) (coll : List Seq) (h : p.transformSequence s = .ok (o, as, coll)) :
    (∀ ls ys, alignAll as ls = .ok ys → LabelsInOrder ls ys) ∧
      ∀ ys ls, realignAll as ys = .ok ls → LabelsInOrder ys ls := by
  obtain ⟨rs, r1, _, r3, _⟩ := (C58_composition p _ o as coll).mp h
  have := runs_own_orderly he r1 hp
  rw [← r3] at this
  exact ⟨alignAll_orderly as this, realignAll_orderly as this⟩

/-- C107: what stands for an entity in the output of such a pipe stands before what stands for a later entity, if no
further entity has one of the two labels. -/
theorem C107_entities (env : Env) (he : env.Sane) (p : Pipe) (hp : ∀ op ∈ p.steps, MadeWith env Ordered op) (u : Str)
    (is : List Intent) (es : List Entity) (d : Datum) (hd : Datum.new u (some is) (some es) = .ok d)
    (hw : ∀ e ∈ es, WithinUtterance u e) (t : Transformed) (ht : p.transform d = .ok t) (e f : Entity)
    (hef : e.stop ≤ f.start) (h0 : e.label ≠ 0) (h1 : f.label ≠ 0)
    (hue : ∀ x ∈ es, x.label = e.label → x = e) (huf : ∀ x ∈ es, x.label = f.label → x = f) (i j : Nat)
    (hi : t.entityLabels[i]? = some e.label) (hj : t.entityLabels[j]? = some f.label) : i < j := by
  obtain ⟨l0, u1, u2, u3⟩ := C45_labels u is es d hd hw
  unfold Pipe.transform at ht
  rw [u1] at ht
  simp only [Except.bind_ok] at ht
  obtain ⟨⟨o, as, coll⟩, q1, q2⟩ := bind_eq_ok ht
  obtain ⟨ys, y1, y2⟩ := bind_eq_ok q2
  injection y2 with y2
  subst y2
  obtain ⟨place, hm, hq⟩ := (C107_order_pipe env he p hp _ o as coll q1).1 l0 ys y1
  have key : ∀ (j : Nat) (x : Entity), x.label ≠ 0 → (∀ y ∈ es, y.label = x.label → y = x) → ys[j]? = some x.label →
      x.start ≤ place j ∧ (place j : Int) < x.stop := by
    intro j x hx hux hj
    have h := (hq j _ hj).resolve_left hx
    have hlt : place j < u.length := by rw [← u2]; exact (List.getElem?_eq_some_iff.mp h).1
    by_cases hc : ∃ e ∈ es, e.start ≤ place j ∧ (place j : Int) < e.stop
    · obtain ⟨e, e1, e2, e3⟩ := hc
      have := (u3 _ hlt).1 e e1 e2 e3
      rw [h] at this
      rw [← hux e e1 (Option.some.inj this).symm]
      exact ⟨e2, e3⟩
    · have := (u3 _ hlt).2 fun e e1 e2 => hc ⟨e, e1, e2⟩
      rw [h] at this
      exact absurd (Option.some.inj this) hx
  obtain ⟨_, x4⟩ := key i e h0 hue hi
  obtain ⟨y3, _⟩ := key j f h1 huf hj
  by_contra hn
  have := hm j i (by omega)
  omega

/-! ### numbers -/

theorem blind_labelFunction {F : List Int → Nat → List Int} (h : NumberBlind F) {f : Int → Int} (hf : Renumbering f) :
    Blind f (labelFunction F) := by
  intro ls n
  unfold labelFunction
  rw [h f hf]
  rfl

theorem own_blind {env : Env} {op : Op} (hop : MadeWith env NumberBlind op) {f : Int → Int} (hf : Renumbering f)
    {s t : Seq} {a : Aligner} (h : op.transform s = .ok (t, a)) : BlindAligner f a := by
  have hr := transform_run h
  cases hop with
  | builtin hb =>
    obtain ⟨c, hc, args, kwargs, _, hop⟩ := hb
    exact runBlind hf env c hc args kwargs op hop s t a hr
  | tokenizer F B hF hB c args kwargs hc =>
    obtain ⟨_, tokenize, _, _, _, h4⟩ := user_call hc
    rw [h4] at hr
    refine tokOp_blind (fun s out a h => ?_) s t a hr
    obtain ⟨toks, _, h⟩ := bind_eq_ok h
    exact blind_tokenizer hf (blind_labelFunction hF hf) (blind_labelFunction hB hf) h
  | recognizer F B hF hB c args kwargs hc =>
    obtain ⟨_, mt, _, _, _, h4⟩ := user_call hc
    rw [h4] at hr
    exact strOp_blind (fun s out a h => blind_pattern hf (blind_labelFunction hF hf) (blind_labelFunction hB hf) h) s t a hr
  | around c args kwargs hc =>
    obtain ⟨u, v, out, _, h1⟩ := own_around hc h
    exact blind_charwise hf (around_blind hf) (getMostCommonExcept_blind hf) h1

theorem runs_own_blind {env : Env} {f : Int → Int} (hf : Renumbering f) {ops : List Op} {s : Seq}
    {rs : List (Seq × Aligner)} (h : Runs ops s rs) (hb : ∀ op ∈ ops, MadeWith env NumberBlind op) :
    ∀ a ∈ rs.map Prod.snd, BlindAligner f a := by
  induction h with
  | nil s => intro a ha; cases ha
  | @cons op ops s t a rs h1 h2 ih =>
    intro b hb'
    rcases List.mem_cons.mp hb' with rfl | hm
    · exact own_blind (hb op (by simp)) hf h1
    · exact ih (fun o ho => hb o (by simp [ho])) b hm

/-- C107: for renumbered labels such an operator returns the renumbered result, or raises the same exception, if its
label functions do not look at the numbers of the classes. -/
theorem C107_renumber (env : Env) (op : Op) (hop : MadeWith env NumberBlind op) (s t : Seq) (a : Aligner)
    (h : op.transform s = .ok (t, a)) (f : Int → Int) (hf : Renumbering f) :
    (∀ ls : List Int, a.transform (ls.map f) = (a.transform ls).map (List.map f)) ∧
      ∀ ys : List Int, a.inverseTransform (ys.map f) = (a.inverseTransform ys).map (List.map f) :=
  ⟨(own_blind hop hf h).transform, (own_blind hop hf h).inverse⟩

/-- C107: so do pipes of such operators and built-in ones. -/
theorem C107_renumber_pipe (env : Env) (p : Pipe) (hp : ∀ op ∈ p.steps, MadeWith env NumberBlind op) (s o : Seq)
    (as : List Aligner) (coll : List Seq) (h : p.transformSequence s = .ok (o, as, coll)) (f : Int → Int)
    (hf : Renumbering f) :
    (∀ ls : List Int, alignAll as (ls.map f) = (alignAll as ls).map (List.map f)) ∧
      ∀ ys : List Int, realignAll as (ys.map f) = (realignAll as ys).map (List.map f) := by
  obtain ⟨rs, r1, _, r3, _⟩ := (C58_composition p _ o as coll).mp h
  have := runs_own_blind hf r1 hp
  rw [← r3] at this
  exact ⟨alignAll_blind as this, realignLoop_blind as.reverse fun a ha => this a (List.mem_reverse.mp ha)⟩

/-- C107: and `Pipe.transform` of data that differ only in the numbers of the classes. -/
theorem C107_renumber_datum (env : Env) (p : Pipe) (hp : ∀ op ∈ p.steps, MadeWith env NumberBlind op) (f : Int → Int)
    (hf : Renumbering f) (d : Datum) :
    p.transform (renumberDatum f d) = (p.transform d).map fun t => { t with entityLabels := t.entityLabels.map f } := by
  unfold Pipe.transform
  rw [unpack_map hf]
  cases hu : unpackDatum d with
  | error e => rfl
  | ok r =>
    obtain ⟨u, is, ls⟩ := r
    simp only [Except.map, Except.bind_ok]
    cases ht : p.transformSequence (.str u) with
    | error e => rfl
    | ok r =>
      obtain ⟨o, as, coll⟩ := r
      simp only [Except.bind_ok]
      rw [(C107_renumber_pipe env p hp _ o as coll ht f hf).1]
      cases alignAll as ls <;> rfl

/-! ### the label functions of the library, and others -/

/-- C107: label functions with both properties: 0 for all, the most frequent label that is not 0, the first label. -/
theorem C107_functions :
    (Ordered fun _ n => List.replicate n 0) ∧ (NumberBlind fun _ n => List.replicate n 0) ∧
    (Ordered fun x n => List.replicate n (firstNonzeroMode x)) ∧ (NumberBlind fun x n => List.replicate n (firstNonzeroMode x)) ∧
    (Ordered fun x n => List.replicate n (x.headD 0)) ∧ NumberBlind fun x n => List.replicate n (x.headD 0) := by
  refine ⟨⟨fun _ n => by simp, fun x n => .replicate n (Or.inl rfl)⟩, fun f hf x n => by simp [hf.zero],
    ⟨fun _ n => by simp, fun x n => .replicate n (firstNonzeroMode_from x)⟩, fun f hf x n => ?_,
    ⟨fun _ n => by simp, fun x n => .replicate n ?_⟩, fun f hf x n => ?_⟩
  · have := getMostCommonExcept_blind hf x n
    rw [getMostCommonExcept_mode, getMostCommonExcept_mode] at this
    injection this with this
  · cases x with
    | nil => exact Or.inl rfl
    | cons y x => exact Or.inr (by simp)
  · cases x with
    | nil => simp [hf.zero]
    | cons y x => simp

/-- A recognizer that replaces the whole text by `n` letters. -/
def wholeText (n : Nat) : UserClass (Matcher × Str) :=
  ⟨"Whole".toList, [], [], false, fun _ => .ok ((fun s pos => if pos = 0 then some (0, s.length) else none),
    List.replicate n 'x')⟩

/-- C107: the conditions on the label functions cannot be dropped: whatever they do to the labels of a text is what some
operator does. -/
theorem C107_needed (env : Env) (F B : List Int → Nat → List Int) (hF : Sized F) (hB : Sized B) (i o : Nat) (hi : 0 < i)
    (ho : 0 < o) :
    ∃ (op : Op) (s t : Seq) (a : Aligner),
      (∃ c : UserClass (Matcher × Str), (c.recognizer env (labelFunction F) (labelFunction B)).call [] [] = .ok op) ∧
      op.transform s = .ok (t, a) ∧ (∀ ls : List Int, ls.length = i → a.transform ls = .ok (F ls o)) ∧
      ∀ ys : List Int, ys.length = o → a.inverseTransform ys = .ok (B ys i) := by
  have h : ((wholeText o).recognizer env (labelFunction F) (labelFunction B)).call [] [] = .ok ⟨_, [], _⟩ := rfl
  obtain ⟨vals, m, token, _, h2, h3⟩ := C85_recognizer env F B hF hB (wholeText o) [] [] _ h
  injection h2 with h2
  injection h2 with e1 e2
  subst e1; subst e2
  have hl : (List.replicate i 'a').length = i := List.length_replicate
  have hm : SoundMatcher (fun s pos => if pos = 0 then some (0, s.length) else none) (List.replicate i 'a') := by
    intro pos a b hp hm
    dsimp only at hm
    split at hm
    · injection hm with hm
      injection hm with e1 e2
      omega
    · cases hm
  obtain ⟨a, h4, _, _, h5, h6, _⟩ := (h3 (List.replicate i 'a') hm).1 [(0, i)]
    (.match_ 0 0 i [] (by rw [hl]; exact hi) (by rw [if_pos rfl, hl]) (.atEnd i (by rw [hl])))
  have e : replaceMatches (List.replicate i 'a') (List.replicate o 'x') 0 [(0, i)] = List.replicate o 'x' := by
    simp [replaceMatches, slice]
  rw [e] at h6
  refine ⟨_, _, _, a, ⟨wholeText o, h⟩, h4, fun ls hls => ?_, fun ys hys => ?_⟩
  · rw [h5 ls (by rw [hl]; exact hls), List.length_replicate]
    have e1 : slice ls 0 i = ls := by
      unfold slice
      rw [List.drop_zero, List.take_of_length_le (by omega)]
    have e2 : ls.drop i = [] := List.drop_eq_nil_of_le (by omega)
    simp only [replaceLabelsBy, e1, e2]
    simp [slice]
  · rw [h6 (Or.inl (by intro e; have := congrArg List.length e; simp at this; omega)) ys
      (by rw [List.length_replicate]; exact hys), List.length_replicate]
    have e1 : ys.take o = ys := List.take_of_length_le (by omega)
    have e2 : ys.drop o = [] := List.drop_eq_nil_of_le (by omega)
    simp only [restoreLabelsBy, Nat.sub_zero, List.drop_zero, List.take_zero, List.nil_append, e1, e2, List.append_nil]

/-! Concrete cases. -/

/-- A recognizer of a dash whose label functions repeat the first label. -/
example : ∃ op a, MadeWith exEnv Ordered op ∧ MadeWith exEnv NumberBlind op ∧
    op.transform (.str "a-b".toList) = .ok (.str "a--b".toList, a) ∧
    a.transform [1, 2, 3] = .ok [1, 2, 2, 3] ∧ a.inverseTransform [4, 5, 6, 7] = .ok [4, 5, 7] := by
  obtain ⟨_, _, _, _, h5, h6⟩ := C107_functions
  have h : (exDash.recognizer exEnv (labelFunction fun x n => List.replicate n (x.headD 0))
      (labelFunction fun x n => List.replicate n (x.headD 0))).call [] [] = .ok ⟨_, [], _⟩ := rfl
  exact ⟨_, _, .recognizer _ _ h5 h5 exDash [] [] h, .recognizer _ _ h6 h6 exDash [] [] h, rfl, rfl, rfl⟩

/-- Label functions that turn the labels round: the order is lost. -/
example : ∃ op s t a, op.transform s = .ok (t, a) ∧ a.transform [1, 2] = .ok [2, 1] ∧ ¬ LabelsInOrder [1, 2] [2, 1] ∧
    ∃ c : UserClass (Matcher × Str), (c.recognizer exEnv (labelFunction fun x n => (x.reverse ++ List.replicate n 0).take n)
      (labelFunction fun x n => (x.reverse ++ List.replicate n 0).take n)).call [] [] = .ok op := by
  obtain ⟨op, s, t, a, h1, h2, h3, _⟩ := C107_needed exEnv (fun x n => (x.reverse ++ List.replicate n 0).take n)
    (fun x n => (x.reverse ++ List.replicate n 0).take n) (fun x n => by simp) (fun x n => by simp) 2 2 (by decide)
    (by decide)
  refine ⟨op, s, t, a, h2, h3 [1, 2] rfl, ?_, h1⟩
  rintro ⟨place, hm, hp⟩
  have h0 := (hp 0 2 rfl).resolve_left (by decide)
  have h1 := (hp 1 1 rfl).resolve_left (by decide)
  have := hm 0 1 (by decide)
  match hp0 : place 0, hp1 : place 1 with
  | 0, _ => rw [hp0] at h0; cases h0
  | _ + 1, 0 => omega
  | _, 1 => rw [hp1] at h1; cases h1
  | _, n + 2 => rw [hp1] at h1; cases h1

/-- A dash recognizer whose label functions repeat the first label. -/
def exDashOp : Op :=
  { cls := exDash.recognizer exEnv (labelFunction fun x n => List.replicate n (x.headD 0))
      (labelFunction fun x n => List.replicate n (x.headD 0))
    configs := []
    run := strOp (patternTransform exEnv.σ (Re.lit "-".toList).search "--".toList
      (labelFunction fun x n => List.replicate n (x.headD 0)) (labelFunction fun x n => List.replicate n (x.headD 0))) }

/-- A pipe of this recognizer and `ReplaceAwithB`. -/
example : (∀ x ∈ (⟨[exDashOp, exOne], []⟩ : Pipe).steps, MadeWith exEnv Ordered x ∧ MadeWith exEnv NumberBlind x) ∧
    ((⟨[exDashOp, exOne], []⟩ : Pipe).transform
        ⟨"a-1".toList, [], [⟨3, "a".toList, 0, 1, []⟩, ⟨4, "1".toList, 2, 3, []⟩]⟩).map
      (fun t => (t.output, t.entityLabels)) = .ok (.str "a--xyz".toList, [3, 0, 0, 4, 4, 4]) := by
  obtain ⟨_, _, _, _, h5, h6⟩ := C107_functions
  refine ⟨fun x hx => ?_, rfl⟩
  rcases List.mem_cons.mp hx with rfl | hx
  · exact ⟨.recognizer _ _ h5 h5 exDash [] [] rfl, .recognizer _ _ h6 h6 exDash [] [] rfl⟩
  · rw [List.mem_singleton.mp hx]
    exact ⟨.builtin exOne_builtin, .builtin exOne_builtin⟩

end Uttut
