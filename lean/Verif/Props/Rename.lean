import Verif.Lemmas.Rename
import Verif.Props.Order
import Verif.Props.Twice

/-!
C105: the numbers of the entity classes do not matter.
-/

namespace Uttut

open Spec

/-! ### operators -/

/-- All results of a `_transform` give renumbered labels for renumbered labels. -/
def RunBlind (f : Int → Int) (run : Seq → Res (Seq × Aligner)) : Prop := ∀ s t a, run s = .ok (t, a) → BlindAligner f a

theorem strOp_blind {f : Int → Int} {g : Str → Res (Str × Aligner)} (h : ∀ s out a, g s = .ok (out, a) → BlindAligner f a) :
    RunBlind f (strOp g) := by
  intro s t a hr
  cases s with
  | list l => cases hr
  | str s =>
    obtain ⟨⟨out, a'⟩, h1, h2⟩ := bind_eq_ok hr
    injection h2 with h2
    injection h2 with h2 h3
    subst h3
    exact h s out _ h1

theorem tokOp_blind {f : Int → Int} {g : Str → Res (List Str × Aligner)} (h : ∀ s out a, g s = .ok (out, a) → BlindAligner f a) :
    RunBlind f (tokOp g) := by
  intro s t a hr
  cases s with
  | list l => cases hr
  | str s =>
    obtain ⟨⟨out, a'⟩, h1, h2⟩ := bind_eq_ok hr
    injection h2 with h2
    injection h2 with h2 h3
    subst h3
    exact h s out _ h1

theorem lstOp_blind {f : Int → Int} {g : List Tok → Res (List Tok × Aligner)} (h : ∀ l out a, g l = .ok (out, a) → BlindAligner f a) :
    RunBlind f (lstOp g) := by
  intro s t a hr
  cases s with
  | str s => cases hr
  | list l =>
    obtain ⟨⟨out, a'⟩, h1, h2⟩ := bind_eq_ok hr
    injection h2 with h2
    injection h2 with h2 h3
    subst h3
    exact h l out _ h1

theorem around_aligner {f : Int → Int} (hf : Renumbering f) (σ : SetOrder) (valid : Char → Bool) {s out : Str} {a : Aligner}
    (h : AddWhitespaceAroundChar.transform σ valid s = .ok (out, a)) : BlindAligner f a :=
  blind_charwise hf (around_blind hf) (getMostCommonExcept_blind hf) h

theorem runBlind {f : Int → Int} (hf : Renumbering f) (env : Env) (c : OpClass) (hc : c ∈ Builtin.all env) (args : List PyVal)
    (kwargs : List (Str × PyVal)) (op : Op) (hop : c.call args kwargs = .ok op) : RunBlind f op.run := by
  simp only [Builtin.all, Builtin.concrete, List.cons_append, List.nil_append, List.mem_cons, List.not_mem_nil,
    or_false] at hc
  rcases hc with rfl | rfl | rfl | rfl | rfl | rfl | rfl | rfl | rfl | rfl | rfl | rfl | rfl | rfl | rfl | rfl |
    rfl | rfl | rfl | rfl | rfl | rfl | rfl | rfl | rfl | rfl | rfl | rfl | rfl | rfl | rfl
  · obtain ⟨_, vals, h⟩ := call_run hop
    cases h
  · rw [simple_run hop]
    refine strOp_blind fun s out a h => ?_
    cases s with
    | nil => exact around_aligner hf env.σ (fun _ => false) (s := []) h
    | cons x s => cases h
  · rw [simple_run hop]
    refine strOp_blind fun s out a h => ?_
    split at h <;> cases h
  · rw [simple_run hop]
    exact tokOp_blind fun s out a h => by cases h
  · rw [simple_run hop]
    refine strOp_blind fun s out a h => ?_
    unfold Lowercase.transform at h
    split at h
    · cases h
    · obtain ⟨g, _, h⟩ := bind_eq_ok h
      obtain ⟨o, _, h⟩ := bind_eq_ok h
      split at h
      · injection h with h
        injection h with _ h
        subst h
        exact blind_null _ _
      · cases h
  · rw [simple_run hop]; exact strOp_blind fun s out a h => around_aligner hf _ _ h
  · rw [simple_run hop]; exact strOp_blind fun s out a h => around_aligner hf _ _ h
  · obtain ⟨_, vals, h⟩ := call_run hop
    unfold Builtin.aroundWord at h
    dsimp only at h
    unfold Builtin.aroundWordInit at h
    split at h
    · obtain ⟨t, ht, h⟩ := bind_eq_ok h
      obtain ⟨ws, hw⟩ := userWords_ok ht
      injection h with h
      rw [← h]
      refine strOp_blind fun s out a h => ?_
      unfold AddWhitespaceAroundWordnZhChar.transform at h
      split at h
      · cases h
      · obtain ⟨g, _, h⟩ := bind_eq_ok h
        obtain ⟨o, _, h⟩ := bind_eq_ok h
        injection h with h
        injection h with _ h
        subst h
        exact blind_ofStrEdit hf _ _ _ _ (word_blind hf) word_back_blind
    · cases h
  · rw [simple_run hop]
    refine strOp_blind fun s out a h => ?_
    unfold StripAccentToken.transform at h
    dsimp only at h
    split at h
    · exact blind_charwise hf (getMostCommonExcept_blind hf) (getMostCommonExcept_blind hf) h
    · cases h
  · rw [simple_run hop]
    exact strOp_blind fun s out a h => blind_charwise hf (getNotEntity_blind hf) (getNotEntity_blind hf) h
  · rw [simple_run hop]
    exact strOp_blind fun s out a h => blind_pattern hf (getMostCommon_blind hf) (getMostCommonExcept_blind hf) h
  · rw [simple_run hop]
    exact strOp_blind fun s out a h => blind_pattern hf (getMostCommon_blind hf) (getMostCommonExcept_blind hf) h
  · rw [simple_run hop]
    exact strOp_blind fun s out a h => blind_pattern hf (spaced_blind hf _) (getMostCommonExcept_blind hf) h
  · rw [simple_run hop]
    exact strOp_blind fun s out a h => blind_pattern hf (spaced_blind hf _) (getMostCommonExcept_blind hf) h
  · rw [simple_run hop]
    exact strOp_blind fun s out a h => blind_pattern hf (getMostCommon_blind hf) (getMostCommon_blind hf) h
  · rw [simple_run hop]
    exact strOp_blind fun s out a h => blind_pattern hf (getNotEntity_blind hf) (getNotEntity_blind hf) h
  · rw [simple_run hop]
    exact strOp_blind fun s out a h => blind_pattern hf (getNotEntity_blind hf) (getNotEntity_blind hf) h
  · rw [simple_run hop]
    exact strOp_blind fun s out a h => blind_pattern hf (spaced_blind hf _) (getMostCommonExcept_blind hf) h
  · obtain ⟨_, vals, h⟩ := call_run hop
    unfold Builtin.replace at h
    dsimp only at h
    unfold Builtin.replaceInit at h
    split at h
    · obtain ⟨p, hp, h⟩ := bind_eq_ok h
      split at h
      · split at h
        · injection h with h
          rw [← h]
          exact strOp_blind fun s out a h => blind_pattern hf (getMostCommonExcept_blind hf) (getMostCommonExcept_blind hf) h
        · injection h with h
          rw [← h]
          exact strOp_blind fun s out a h =>
            blind_pattern hf (getMostCommonExcept_blind hf) (getMostCommonExcept_blind hf) (replaceNoStr_ok h)
      · cases h
    · cases h
  · rw [simple_run hop]
    exact tokOp_blind fun s out a h => blind_tokenizer hf noneTransducer_blind noneTransducer_blind h
  · rw [simple_run hop]
    exact tokOp_blind fun s out a h => blind_tokenizer hf (getMostCommonExcept_blind hf) (getMostCommonExcept_blind hf) h
  · rw [simple_run hop]
    exact tokOp_blind fun s out a h => blind_tokenizer hf (getMostCommonExcept_blind hf) (getMostCommonExcept_blind hf) h
  · rw [simple_run hop]
    exact tokOp_blind fun s out a h => blind_tokenizer hf (getMostCommonExcept_blind hf) (getMostCommonExcept_blind hf) h
  · obtain ⟨_, vals, h⟩ := call_run hop
    unfold Builtin.customTok at h
    dsimp only at h
    unfold Builtin.customTokInit at h
    split at h
    · obtain ⟨t, ht, h⟩ := bind_eq_ok h
      injection h with h
      rw [← h]
      refine tokOp_blind fun s out a h => ?_
      unfold CustomWordTokenizer.transform at h
      split at h
      · cases h
      · exact blind_tokenizer hf (getMostCommonExcept_blind hf) (getMostCommonExcept_blind hf) h
    · cases h
  · obtain ⟨_, vals, h⟩ := call_run hop
    unfold Builtin.sosEos at h
    dsimp only at h
    unfold Builtin.sosEosInit at h
    split at h
    · obtain ⟨s, _, h⟩ := bind_eq_ok h
      obtain ⟨e, _, h⟩ := bind_eq_ok h
      injection h with h
      rw [← h]
      refine lstOp_blind fun l out a h => ?_
      unfold AddSosEos.transform at h
      obtain ⟨g, hg, h⟩ := bind_eq_ok h
      obtain ⟨o, _, h⟩ := bind_eq_ok h
      injection h with h
      injection h with _ h
      subst h
      exact blind_ofLstEdit hf _ _ _ _ (getNotEntity_blind hf) (getNotEntity_blind hf)
    · cases h
  · obtain ⟨_, vals, h⟩ := call_run hop
    unfold Builtin.pad at h
    dsimp only at h
    unfold Builtin.padInit at h
    split at h
    · obtain ⟨t, _, h⟩ := bind_eq_ok h
      injection h with h
      rw [← h]
      refine lstOp_blind fun l out a h => ?_
      obtain ⟨n, _, h⟩ := bind_eq_ok h
      unfold Pad.transform at h
      obtain ⟨g, hg, h⟩ := bind_eq_ok h
      obtain ⟨o, _, h⟩ := bind_eq_ok h
      injection h with h
      injection h with _ h
      subst h
      have hg : ∃ ts, ReplacementGroup.addAll env.σ ts = .ok g := by
        unfold Pad.group at hg
        dsimp only at hg
        split at hg
        · exact ⟨_, hg⟩
        · split at hg <;> exact ⟨_, hg⟩
      obtain ⟨ts, hg⟩ := hg
      exact blind_ofLstEdit hf _ _ _ _ (getNotEntity_blind hf) (getNotEntity_blind hf)
    · cases h
  · obtain ⟨_, vals, h⟩ := call_run hop
    unfold Builtin.token2index at h
    dsimp only at h
    unfold Builtin.token2indexInit at h
    split at h
    · obtain ⟨d, _, h⟩ := bind_eq_ok h
      split at h
      · obtain ⟨_, _, h⟩ := bind_eq_ok h
        injection h with h
        rw [← h]
        exact lstOp_blind fun l out a h => blind_tokenwise (fun g n => blind_null _ _) h
      · obtain ⟨_, _, h⟩ := bind_eq_ok h
        split at h <;> cases h
    · cases h
  · obtain ⟨_, vals, h⟩ := call_run hop
    unfold Builtin.spanSubwords at h
    dsimp only at h
    unfold Builtin.spanSubwordsInit at h
    split at h
    · obtain ⟨unk, _, h⟩ := bind_eq_ok h
      injection h with h
      rw [← h]
      refine lstOp_blind fun l out a h => ?_
      obtain ⟨has, n, h, _⟩ := spanSubwordsRun_ok h
      exact blind_tokenwise (fun g n => blind_ofLstEdit hf _ _ _ _ (getMostCommon_blind hf) (getMostCommonExcept_blind hf)) h
    · cases h
  · obtain ⟨_, vals, h⟩ := call_run hop
    unfold Builtin.token2indexHash at h
    dsimp only at h
    unfold Builtin.token2indexHashInit at h
    split at h
    · obtain ⟨d, _, h⟩ := bind_eq_ok h
      obtain ⟨_, _, h⟩ := bind_eq_ok h
      injection h with h
      rw [← h]
      exact lstOp_blind fun l out a h => blind_tokenwise (fun g n => blind_null _ _) h
    · cases h
  · have hnum : ∀ token, RunBlind f (lstOp (PureNum2Token.transform env.σ env.u token)) := fun token =>
      lstOp_blind fun l out a h => blind_tokenwise (fun g n => blind_null _ _) h
    obtain ⟨_, vals, h⟩ := call_run hop
    unfold Builtin.pureNum at h
    dsimp only at h
    unfold Builtin.pureNumInit at h
    split at h
    · injection h with h
      rw [← h]
      exact hnum _
    · obtain ⟨t, _, h⟩ := bind_eq_ok h
      injection h with h
      rw [← h]
      exact hnum _
    · cases h
  · obtain ⟨_, vals, h⟩ := call_run hop
    unfold Builtin.endTok at h
    dsimp only at h
    unfold Builtin.endTokInit at h
    split at h
    · cases h
    · obtain ⟨e, _, h⟩ := bind_eq_ok h
      obtain ⟨e', _, h⟩ := bind_eq_ok h
      injection h with h
      rw [← h]
      refine lstOp_blind fun l out a h => ?_
      unfold AddEndToken.transform at h
      obtain ⟨g, hg, h⟩ := bind_eq_ok h
      obtain ⟨o, _, h⟩ := bind_eq_ok h
      injection h with h
      injection h with _ h
      subst h
      exact blind_ofLstEdit hf _ _ _ _ (getNotEntity_blind hf) (getNotEntity_blind hf)
    · cases h


/-- C105: a built-in operator does not look at the numbers of the classes: for renumbered labels its aligner returns the
renumbered result, or raises the same exception, in both directions. -/
theorem C105_operator (env : Env) (op : Op) (hop : IsBuiltin env op) (s t : Seq) (a : Aligner)
    (h : op.transform s = .ok (t, a)) (f : Int → Int) (hf : Renumbering f) :
    (∀ ls : List Int, a.transform (ls.map f) = (a.transform ls).map (List.map f)) ∧
      ∀ ys : List Int, a.inverseTransform (ys.map f) = (a.inverseTransform ys).map (List.map f) := by
  obtain ⟨c, hc, args, kwargs, _, hop⟩ := hop
  have := runBlind hf env c hc args kwargs op hop s t a (transform_run h)
  exact ⟨this.transform, this.inverse⟩

/-! ### pipes -/

theorem runs_blind {env : Env} {f : Int → Int} (hf : Renumbering f) {ops : List Op} {s : Seq} {rs : List (Seq × Aligner)}
    (h : Runs ops s rs) (hb : ∀ op ∈ ops, IsBuiltin env op) : ∀ a ∈ rs.map Prod.snd, BlindAligner f a := by
  induction h with
  | nil s => intro a ha; cases ha
  | @cons op ops s t a rs h1 h2 ih =>
    intro b hb'
    rcases List.mem_cons.mp hb' with rfl | hm
    · obtain ⟨c, hc, args, kwargs, _, hop⟩ := hb op (by simp)
      exact runBlind hf env c hc args kwargs op hop s t _ (transform_run h1)
    · exact ih (fun o ho => hb o (by simp [ho])) b hm

theorem alignAll_blind {f : Int → Int} : ∀ (as : List Aligner), (∀ a ∈ as, BlindAligner f a) → ∀ ls : List Int,
    alignAll as (ls.map f) = (alignAll as ls).map (List.map f) := by
  intro as
  induction as with
  | nil => intro _ ls; rfl
  | cons a as ih =>
    intro ha ls
    unfold alignAll
    rw [(ha a (by simp)).transform]
    cases a.transform ls with
    | error e => rfl
    | ok ms => exact ih (fun b hb => ha b (by simp [hb])) ms

theorem realignLoop_blind {f : Int → Int} : ∀ (as : List Aligner), (∀ a ∈ as, BlindAligner f a) → ∀ ls : List Int,
    realignLoop as (ls.map f) = (realignLoop as ls).map (List.map f) := by
  intro as
  induction as with
  | nil => intro _ ls; rfl
  | cons a as ih =>
    intro ha ls
    unfold realignLoop
    rw [(ha a (by simp)).inverse]
    cases a.inverseTransform ls with
    | error e => rfl
    | ok ms => exact ih (fun b hb => ha b (by simp [hb])) ms

theorem pipe_blind {env : Env} {f : Int → Int} (hf : Renumbering f) {p : Pipe} (hp : ∀ op ∈ p.steps, IsBuiltin env op)
    {s o : Seq} {as : List Aligner} {coll : List Seq} (h : p.transformSequence s = .ok (o, as, coll)) :
    ∀ a ∈ as, BlindAligner f a := by
  obtain ⟨rs, r1, r2, r3, r4⟩ := (C58_composition p _ o as coll).mp h
  rw [r3]
  exact runs_blind hf r1 hp

/-- C105: neither does a pipe of them, there and back. -/
theorem C105_pipe (env : Env) (p : Pipe) (hp : ∀ op ∈ p.steps, IsBuiltin env op) (s o : Seq)
    (as : List Aligner) (coll : List Seq) (h : p.transformSequence s = .ok (o, as, coll)) (f : Int → Int)
    (hf : Renumbering f) :
    (∀ ls : List Int, alignAll as (ls.map f) = (alignAll as ls).map (List.map f)) ∧
      ∀ ys : List Int, realignAll as (ys.map f) = (realignAll as ys).map (List.map f) :=
  ⟨alignAll_blind as (pipe_blind hf hp h),
    realignLoop_blind as.reverse fun a ha => pipe_blind hf hp h a (List.mem_reverse.mp ha)⟩

/-! ### data -/

theorem paint_map {f : Int → Int} (l : Int) (n : Nat) : ∀ (i : Int) (ls : List Int),
    paint (f l) n i (ls.map f) = (paint l n i ls).map (List.map f) := by
  induction n with
  | zero => intro i ls; rfl
  | succ n ih =>
    intro i ls
    unfold paint setLabel
    rw [List.length_map]
    cases pyIndex? ls.length i with
    | none => rfl
    | some j =>
      simp only [Except.bind_ok]
      rw [← List.map_set]
      exact ih _ _

theorem paintAll_map {f : Int → Int} (es : List Entity) : ∀ ls : List Int,
    paintAll (es.map (renumberEntity f)) (ls.map f) = (paintAll es ls).map (List.map f) := by
  induction es with
  | nil => intro ls; rfl
  | cons e es ih =>
    intro ls
    simp only [List.map_cons]
    unfold paintAll
    have : paint (renumberEntity f e).label ((renumberEntity f e).stop - (renumberEntity f e).start).toNat
        (renumberEntity f e).start (ls.map f) = (paint e.label (e.stop - e.start).toNat e.start ls).map (List.map f) :=
      paint_map _ _ _ _
    rw [this]
    cases paint e.label (e.stop - e.start).toNat e.start ls with
    | error e => rfl
    | ok ms => exact ih ms

theorem unpack_map {f : Int → Int} (hf : Renumbering f) (d : Datum) :
    unpackDatum (renumberDatum f d) = (unpackDatum d).map fun r => (r.1, r.2.1, r.2.2.map f) := by
  unfold unpackDatum renumberDatum
  dsimp only
  have e : List.replicate d.utterance.length (0 : Int) = (List.replicate d.utterance.length (0 : Int)).map f := by
    rw [List.map_replicate, hf.zero]
  rw [e, paintAll_map, ← e]
  cases paintAll d.entities (List.replicate d.utterance.length 0) <;> rfl

/-- C105: data that differ only in the numbers of the classes become sequences that differ only in the labels; texts,
intents, intermediate results and exceptions are the same. -/
theorem C105_datum (env : Env) (p : Pipe) (hp : ∀ op ∈ p.steps, IsBuiltin env op) (f : Int → Int) (hf : Renumbering f)
    (d : Datum) :
    p.transform (renumberDatum f d) = (p.transform d).map fun t => { t with entityLabels := t.entityLabels.map f } := by
  unfold Pipe.transform
  rw [unpack_map hf]
  cases hu : unpackDatum d with
  | error e => rfl
  | ok r =>
    obtain ⟨u, is, ls⟩ := r
    simp only [Except.map, Except.bind_ok]
    cases ht : p.transformSequence (.str u) with
    | error e => rfl
    | ok r =>
      obtain ⟨o, as, coll⟩ := r
      simp only [Except.bind_ok]
      rw [(C105_pipe env p hp _ o as coll ht f hf).1]
      cases alignAll as ls <;> rfl

theorem startLoop_map {f : Int → Int} (hf : ∀ x y, f x = f y → x = y) (ls : List Int) : ∀ (i : Nat) (c : Int) (ix : List Nat),
    startLoop (ls.map f) i (f c) ix = startLoop ls i c ix := by
  induction ls with
  | nil => intro i c ix; rfl
  | cons l ls ih =>
    intro i c ix
    simp only [List.map_cons]
    unfold startLoop
    by_cases h : l = c
    · subst h
      rw [if_neg (by simp), if_neg (by simp)]
      exact ih _ _ _
    · rw [if_pos h, if_pos fun e => h (hf _ _ e)]
      exact ih _ _ _

theorem compactLoop_map {f : Int → Int} (hf : Renumbering f) (ls : List Int) (n : Nat) : ∀ (pos j : Nat) (ix : List Nat),
    compactLoop (ls.map f) n pos j ix = compactLoop ls n pos j ix := by
  induction n with
  | zero => intro pos j ix; rfl
  | succ n ih =>
    intro pos j ix
    unfold compactLoop
    cases ix[pos]? with
    | none => rfl
    | some ind =>
      simp only [List.getElem?_map]
      cases ls[ind]? with
      | none => rfl
      | some l =>
        simp only [Option.map_some]
        by_cases h : l = 0
        · subst h
          rw [hf.zero, if_neg (by simp), if_neg (by simp)]
          exact ih _ _ _
        · rw [if_pos h, if_pos fun e => h (hf.injective _ _ (e.trans hf.zero.symm))]
          exact ih _ _ _

theorem meaningful_map {f : Int → Int} (hf : Renumbering f) (ls : List Int) :
    getMeaningfulStartIndices (ls.map f) = getMeaningfulStartIndices ls := by
  have e : getStartIndices (ls.map f) = getStartIndices ls := by
    cases ls with
    | nil => rfl
    | cons l ls => exact congrArg Except.ok (startLoop_map hf.injective (l :: ls) 0 l [0])
  unfold getMeaningfulStartIndices
  rw [e]
  cases getStartIndices ls with
  | error e => rfl
  | ok ix =>
    simp only [Except.bind_ok]
    rw [compactLoop_map hf]

theorem entityNew_map {f : Int → Int} (hf : Renumbering f) (l : Int) (v : Str) (i j : Int) :
    Entity.new (f l) v i j none = (Entity.new l v i j none).map (renumberEntity f) := by
  have hs := hf.signed l
  unfold Entity.new
  have : (toInt32 (f l) = .ok (f l) ∧ toInt32 l = .ok l) ∨
      (toInt32 (f l) = .error .overflowError ∧ toInt32 l = .error .overflowError) := by
    unfold toInt32
    by_cases h : -2147483648 ≤ l ∧ l < 2147483648
    · have h' : -2147483648 ≤ f l ∧ f l < 2147483648 := by
        have := hs.mpr (by omega)
        omega
      exact Or.inl ⟨if_pos h', if_pos h⟩
    · have h' : ¬ (-2147483648 ≤ f l ∧ f l < 2147483648) := fun h' => h (by
        have := hs.mp (by omega)
        omega)
      exact Or.inr ⟨if_neg h', if_neg h⟩
  rcases this with ⟨h1, h2⟩ | ⟨h1, h2⟩
  · rw [h1, h2]
    simp only [Except.bind_ok]
    cases toInt32 i with
    | error e => rfl
    | ok i' =>
      cases toInt32 j with
      | error e => rfl
      | ok j' => rfl
  · rw [h1, h2]
    rfl

theorem packEntities_map {f : Int → Int} (hf : Renumbering f) (u : Str) (ls : List Int) (ps : List (Nat × Nat)) :
    packEntities u (ls.map f) ps = (packEntities u ls ps).map (List.map (renumberEntity f)) := by
  induction ps with
  | nil => rfl
  | cons q ps ih =>
    obtain ⟨i, j⟩ := q
    unfold packEntities
    simp only [List.getElem?_map]
    cases ls[i]? with
    | none => rfl
    | some l =>
      simp only [Option.map_some]
      rw [entityNew_map hf, ih]
      cases Entity.new l (pySlice u i ((u.length : Int) - j)) i ((u.length : Int) - j) none with
      | error e => rfl
      | ok e =>
        cases packEntities u ls ps <;> rfl

theorem checkPositions_map {f : Int → Int} (u : Str) (es : List Entity) :
    checkPositions u (es.map (renumberEntity f)) = checkPositions u es := by
  induction es with
  | nil => rfl
  | cons e es ih =>
    simp only [List.map_cons]
    unfold checkPositions
    rw [ih]
    rfl

theorem checkOverlaps_map {f : Int → Int} (es : List Entity) :
    checkOverlaps (es.map (renumberEntity f)) = checkOverlaps es := by
  induction es with
  | nil => rfl
  | cons e es ih =>
    cases es with
    | nil => rfl
    | cons e' es =>
      simp only [List.map_cons] at ih ⊢
      unfold checkOverlaps
      rw [ih]
      rfl

theorem datumNew_map {f : Int → Int} (u : Str) (is : Option (List Intent)) (es : List Entity) :
    Datum.new u is (some (es.map (renumberEntity f))) = (Datum.new u is (some es)).map (renumberDatum f) := by
  have e : pySorted Entity.start (es.map (renumberEntity f)) = (pySorted Entity.start es).map (renumberEntity f) :=
    (NotedGroup.pySorted_map (renumberEntity f) Entity.start es).symm
  unfold Datum.new
  dsimp only
  rw [e, checkPositions_map, checkOverlaps_map]
  cases checkPositions u (pySorted Entity.start es) with
  | error e => rfl
  | ok _ =>
    cases checkOverlaps (pySorted Entity.start es) with
    | error e => rfl
    | ok _ => rfl

/-- C105: packing renumbered labels gives the same datum with renumbered classes, or the same exception. -/
theorem C105_pack (f : Int → Int) (hf : Renumbering f) (u : Str) (is ls : List Int) :
    packToDatum u is (ls.map f) = (packToDatum u is ls).map (renumberDatum f) := by
  unfold packToDatum
  rw [List.length_map, ← List.map_reverse, meaningful_map hf, meaningful_map hf]
  split
  · rfl
  · cases (pySorted (fun i => i) (pyDedup is)).mapM Intent.new with
    | error e => rfl
    | ok is' =>
      simp only [Except.bind_ok]
      cases getMeaningfulStartIndices ls with
      | error e => rfl
      | ok starts =>
        simp only [Except.bind_ok]
        cases getMeaningfulStartIndices ls.reverse with
        | error e => rfl
        | ok ends =>
          simp only [Except.bind_ok]
          rw [packEntities_map hf]
          cases packEntities u ls (starts.zip ends.reverse) with
          | error e => rfl
          | ok es => exact datumNew_map u (some is') es

/-- C105: so a model that predicts other numbers for the classes gives the same entities with these numbers. -/
theorem C105_predicted (env : Env) (p : Pipe) (hp : ∀ op ∈ p.steps, IsBuiltin env op) (u : Str) (o : Seq)
    (as : List Aligner) (coll : List Seq) (h : p.transformSequence (.str u) = .ok (o, as, coll)) (f : Int → Int)
    (hf : Renumbering f) (is ys : List Int) :
    (realignAll as (ys.map f) >>= packToDatum u is) =
      (realignAll as ys >>= packToDatum u is).map (renumberDatum f) := by
  rw [(C105_pipe env p hp _ o as coll h f hf).2]
  cases realignAll as ys with
  | error e => rfl
  | ok ls => exact C105_pack f hf u is ls

/-! ### what is needed of the numbers -/

/-- C105: any two positive classes that fit into a C `int` can be exchanged. -/
theorem C105_exchange (a b : Int) (ha : 0 < a) (ha' : a < 2 ^ 31) (hb : 0 < b) (hb' : b < 2 ^ 31) :
    Renumbering (exchange a b) := by
  refine ⟨fun x y h => ?_, ?_, fun x => ?_, fun x => ?_⟩ <;> unfold exchange at * <;> split_ifs at * <;> omega

/-- C105: two classes must not become one. `MergeWhiteSpaceCharacters` gives the merged blank the class of the first
blank if all are different; if the classes 2 and 3 are one class, this class is in the majority. -/
theorem C105_merge (f : Int → Int) (hf : f = fun x => if x = 3 then 2 else x) :
    f 0 = 0 ∧ ∃ op t a, create exEnv "MergeWhiteSpaceCharacters" [] [] = .ok op ∧
      op.transform (.str "   ".toList) = .ok (t, a) ∧ a.transform [1, 2, 3] = .ok [1] ∧
      a.transform ([1, 2, 3].map f) = .ok [2] ∧
      a.transform ([1, 2, 3].map f) ≠ (a.transform [1, 2, 3]).map (List.map f) := by
  subst hf
  refine ⟨rfl, _, _, _, rfl, rfl, rfl, rfl, fun h => ?_⟩
  have h : (Except.ok [2] : Res (List Int)) = .ok [1] := h
  injection h with h
  exact absurd h (by decide)

/-- C105: the number 0 must stay. Blanks put in place of punctuation get the label 0 whatever 0 means. -/
theorem C105_moved_zero (f : Int → Int) (hf : f = exchange 0 1) :
    ∃ op t a, create exEnv "PunctuationExceptEndpointToWhitespace" [] [] = .ok op ∧
      op.transform (.str ",".toList) = .ok (t, a) ∧ a.transform [0] = .ok [0] ∧ a.transform ([0].map f) = .ok [0] ∧
      a.transform ([0].map f) ≠ (a.transform [0]).map (List.map f) := by
  subst hf
  refine ⟨_, _, _, rfl, rfl, rfl, rfl, fun h => ?_⟩
  have h : (Except.ok [0] : Res (List Int)) = .ok [1] := h
  injection h with h
  exact absurd h (by decide)

/-- C105: numbers must stay in the range of `unsigned int`. A token of class -1 gets the label 0 without notice, and the
label -1 of a token raises OverflowError on the way back. -/
theorem C105_negative (f : Int → Int) (hf : f = exchange 5 (-1)) :
    ∃ op t a, create exEnv "WhiteSpaceTokenizer" [] [] = .ok op ∧ op.transform (.str "ab".toList) = .ok (t, a) ∧
      a.transform [5, 5] = .ok [5] ∧ a.transform ([5, 5].map f) = .ok [0] ∧ a.inverseTransform [5] = .ok [5, 5] ∧
      a.inverseTransform ([5].map f) = .error .overflowError := by
  subst hf
  exact ⟨_, _, _, rfl, rfl, rfl, rfl, rfl, rfl⟩

/-! ### concrete cases -/

theorem exExchange : Renumbering (exchange 5 7) := C105_exchange 5 7 (by decide) (by decide) (by decide) (by decide)

example : exchange 5 7 5 = 7 ∧ exchange 5 7 7 = 5 ∧ exchange 5 7 9 = 9 := by decide

/-- A concrete case of `C105_operator`: `ReplaceAwithB("1", "xyz")`, predictions with the classes 5 and 7 exchanged. -/
example : ∃ a, exOne.transform (.str "a1b1".toList) = .ok (.str "axyzbxyz".toList, a) ∧
    a.inverseTransform [0, 7, 7, 5, 0, 5, 5, 9] = .ok [0, 7, 0, 5] ∧
    a.inverseTransform [0, 5, 5, 7, 0, 7, 7, 9] = .ok [0, 5, 0, 7] := by
  obtain ⟨_, a, _, _, _, h1, _, _, h2⟩ := exTwo_run
  refine ⟨a, h1, h2, ?_⟩
  have := (C105_operator exEnv exOne exOne_builtin _ _ a h1 _ exExchange).2 [0, 7, 7, 5, 0, 5, 5, 9]
  rw [h2] at this
  exact this

theorem exSplit_builtin : IsBuiltin exEnv exSplit := create_builtin (name := "WhiteSpaceTokenizer") (args := []) rfl

theorem exAround_builtin : IsBuiltin exEnv exAround :=
  create_builtin (name := "AddWhitespaceAroundPunctuation") (args := []) rfl

theorem exAroundSplit_builtin : ∀ op ∈ (⟨[exAround, exSplit], []⟩ : Pipe).steps, IsBuiltin exEnv op := by
  intro op hop
  rcases List.mem_cons.mp hop with rfl | hop
  · exact exAround_builtin
  · rw [List.mem_singleton.mp hop]; exact exSplit_builtin

/-- Concrete cases of `C105_pipe` and `C105_predicted`: class 7 predicted for the tokens of "a-b", or class 5. -/
example : ∃ o as coll, (⟨[exAround, exSplit], []⟩ : Pipe).transformSequence (.str "a-b".toList) = .ok (o, as, coll) ∧
    realignAll as [7, 7, 7] = .ok [7, 7, 7] ∧ realignAll as [5, 5, 5] = .ok [5, 5, 5] ∧
    (realignAll as [5, 5, 5] >>= packToDatum "a-b".toList [1]) =
      .ok ⟨"a-b".toList, [⟨1⟩], [⟨5, "a-b".toList, 0, 3, []⟩]⟩ := by
  obtain ⟨a, h1, h2⟩ := exAround_back
  obtain ⟨b, g1, g2⟩ := exSplit_back3
  have hr : (⟨[exAround, exSplit], []⟩ : Pipe).transformSequence (.str "a-b".toList) = .ok (_, [a, b], _) :=
    (C58_composition _ _ _ _ _).mpr ⟨[(_, a), (_, b)], .cons h1 (.cons g1 (.nil _)), rfl, rfl, rfl⟩
  have ha : realignAll [a, b] [7, 7, 7] = .ok [7, 7, 7] := by
    rw [realignAll_cons, realignAll_cons]
    show ((Except.ok [7, 7, 7] >>= fun m => b.inverseTransform m) >>= fun m => a.inverseTransform m) = _
    rw [Except.bind_ok, g2, Except.bind_ok, h2]
  have hd : packToDatum "a-b".toList [1] [7, 7, 7] = .ok ⟨"a-b".toList, [⟨1⟩], [⟨7, "a-b".toList, 0, 3, []⟩]⟩ := by
    have e : "a-b".toList = ['a', '-', 'b'] := rfl
    rw [e]
    rfl
  refine ⟨_, _, _, hr, ha, ?_, ?_⟩
  · have := (C105_pipe exEnv _ exAroundSplit_builtin _ _ _ _ hr _ exExchange).2 [7, 7, 7]
    rw [ha] at this
    exact this
  · have := C105_predicted exEnv _ exAroundSplit_builtin _ _ _ _ hr _ exExchange [1] [7, 7, 7]
    rw [ha, Except.bind_ok, hd] at this
    exact this

/-- A concrete case of `C105_datum`: the datum "1" with an entity of class 5, or 7. -/
example : ∃ t, (⟨[exOne], []⟩ : Pipe).transform ⟨"1".toList, [], [⟨5, "1".toList, 0, 1, []⟩]⟩ = .ok t ∧
    t.entityLabels = [5, 5, 5] ∧
    (⟨[exOne], []⟩ : Pipe).transform ⟨"1".toList, [], [⟨7, "1".toList, 0, 1, []⟩]⟩ =
      .ok { t with entityLabels := [7, 7, 7] } := by
  have h := C105_datum exEnv ⟨[exOne], []⟩ exOne_steps _ exExchange ⟨"1".toList, [], [⟨5, "1".toList, 0, 1, []⟩]⟩
  exact ⟨_, rfl, rfl, h⟩

/-- A concrete case of `C105_pack`. -/
example : packToDatum ['a', ' ', 'b'] [1] [5, 0, 7] =
      .ok ⟨['a', ' ', 'b'], [⟨1⟩], [⟨5, ['a'], 0, 1, []⟩, ⟨7, ['b'], 2, 3, []⟩]⟩ ∧
    packToDatum ['a', ' ', 'b'] [1] [7, 0, 5] =
      .ok ⟨['a', ' ', 'b'], [⟨1⟩], [⟨7, ['a'], 0, 1, []⟩, ⟨5, ['b'], 2, 3, []⟩]⟩ :=
  ⟨rfl, C105_pack _ exExchange ['a', ' ', 'b'] [1] [5, 0, 7]⟩

end Uttut
