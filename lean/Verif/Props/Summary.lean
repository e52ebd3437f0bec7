import Verif.Spec.Summary
import Verif.Props.Serialize
import Verif.Props.Pipe

/-!
C71: what `Pipe.summary` prints.
-/

namespace Uttut

/-- The checkpoint dict of a pipe with the given entries, the first of them being step `k`. -/
def namedFrom : Int → List (Op × Option Str) → List (Str × Int)
  | _, [] => []
  | k, (_, none) :: es => namedFrom (k + 1) es
  | k, (_, some name) :: es => (name, k) :: namedFrom (k + 1) es

theorem namedFrom_append (k : Int) (es fs : List (Op × Option Str)) :
    namedFrom k (es ++ fs) = namedFrom k es ++ namedFrom (k + es.length) fs := by
  induction es generalizing k with
  | nil => simp [namedFrom]
  | cons e es ih =>
    obtain ⟨op, ck⟩ := e
    have e1 : k + 1 + (es.length : Int) = k + ((es.length + 1 : Nat) : Int) := by omega
    cases ck with
    | none => simp only [List.cons_append, namedFrom, List.length_cons, ih, e1]
    | some name => simp only [List.cons_append, namedFrom, List.length_cons, ih, e1]

theorem namedFrom_mem (k : Int) (es : List (Op × Option Str)) (kv : Str × Int) (h : kv ∈ namedFrom k es) :
    k ≤ kv.2 ∧ kv.2 < k + es.length := by
  induction es generalizing k with
  | nil => simp [namedFrom] at h
  | cons e es ih =>
    obtain ⟨op, ck⟩ := e
    simp only [List.length_cons]
    cases ck with
    | none => have := ih (k + 1) h; omega
    | some name =>
      rcases List.mem_cons.mp h with rfl | h
      · dsimp only; omega
      · have := ih (k + 1) h; omega

theorem namedFrom_nodup (k : Int) (es : List (Op × Option Str)) : ((namedFrom k es).map Prod.snd).Nodup := by
  induction es generalizing k with
  | nil => simp [namedFrom]
  | cons e es ih =>
    obtain ⟨op, ck⟩ := e
    cases ck with
    | none => exact ih (k + 1)
    | some name =>
      refine List.nodup_cons.mpr ⟨fun h => ?_, ih (k + 1)⟩
      obtain ⟨kv, h1, h2⟩ := List.mem_map.mp h
      have := (namedFrom_mem _ _ _ h1).1
      dsimp only at h2
      omega

theorem namedFrom_length (k : Int) (es : List (Op × Option Str)) : (namedFrom k es).length = namedEntries es := by
  induction es generalizing k with
  | nil => rfl
  | cons e es ih =>
    obtain ⟨op, ck⟩ := e
    cases ck with
    | none => simpa [namedFrom, namedEntries] using ih (k + 1)
    | some name => simpa [namedFrom, namedEntries] using ih (k + 1)

/-- The swapped dict looked up at step `k + j`. -/
theorem namedFrom_get (k : Int) (es : List (Op × Option Str)) (j : Nat) :
    dictGet ((namedFrom k es).map fun kv => (kv.2, kv.1)) (k + j) = es[j]?.bind Prod.snd := by
  induction es generalizing k j with
  | nil => rfl
  | cons e es ih =>
    obtain ⟨op, ck⟩ := e
    have rest : dictGet ((namedFrom (k + 1) es).map fun kv => (kv.2, kv.1)) k = none := by
      rw [dictGet_none]
      intro h
      simp only [List.map_map, List.mem_map] at h
      obtain ⟨kv, h1, h2⟩ := h
      have := (namedFrom_mem _ _ _ h1).1
      simp only [Function.comp] at h2
      omega
    cases j with
    | zero =>
      cases ck with
      | none => simpa [namedFrom] using rest
      | some name => simp [namedFrom, dictGet]
    | succ j =>
      have e1 : k + ((j + 1 : Nat) : Int) = k + 1 + (j : Int) := by omega
      cases ck with
      | none =>
        rw [e1]
        exact ih (k + 1) j
      | some name =>
        simp only [namedFrom, List.map_cons, dictGet]
        rw [if_neg (by omega), e1]
        exact ih (k + 1) j

theorem BuiltBy.content {p : Pipe} {es : List (Op × Option Str)} (h : BuiltBy p es) :
    p.steps = es.map Prod.fst ∧ p.checkpoints = namedFrom 1 es ∧ (p.checkpoints.map Prod.fst).Nodup := by
  induction h with
  | new => exact ⟨rfl, rfl, List.nodup_nil⟩
  | @added p p' es op ck _ hc ih =>
    obtain ⟨i1, i2, i3⟩ := ih
    rcases C61_add_op p op ck with ⟨_, _, _, h1⟩ | ⟨_, ⟨h0, h1⟩ | ⟨_, _, _, h1⟩ | ⟨name, h0, hn, h1⟩⟩
    · rw [h1] at hc; cases hc
    · rw [h1] at hc
      cases hc
      subst h0
      refine ⟨by simp [i1], ?_, i3⟩
      rw [namedFrom_append]
      simpa [namedFrom] using i2
    · rw [h1] at hc; cases hc
    · rw [h1] at hc
      cases hc
      subst h0
      refine ⟨by simp [i1], ?_, ?_⟩
      · rw [namedFrom_append]
        simp only [namedFrom]
        rw [i2, i1]
        simp only [List.length_map]
        rw [Int.add_comm]
      · simp only [List.map_append, List.map_cons, List.map_nil]
        rw [List.nodup_append]
        refine ⟨i3, by simp, fun a ha b hb => ?_⟩
        rw [List.mem_singleton.mp hb]
        rintro rfl
        exact hn ha
  | @wrongType p p' es op ck _ hc ih =>
    rcases C61_add_op p op ck with ⟨_, _, _, h1⟩ | ⟨_, ⟨h0, h1⟩ | ⟨_, _, _, h1⟩ | ⟨name, h0, hn, h1⟩⟩
    all_goals (rw [h1] at hc; cases hc)
    exact ih
  | @nameTaken p p' es op ck _ hc ih =>
    obtain ⟨i1, i2, i3⟩ := ih
    rcases C61_add_op p op ck with ⟨_, _, _, h1⟩ | ⟨_, ⟨h0, h1⟩ | ⟨_, _, _, h1⟩ | ⟨name, h0, hn, h1⟩⟩
    all_goals (rw [h1] at hc; cases hc)
    refine ⟨by simp [i1], ?_, i3⟩
    rw [namedFrom_append]
    simpa [namedFrom] using i2

theorem name_word (t : SeqType) : t.name = t.word := by cases t <;> rfl

theorem lengthStr_decimal (n : Nat) : Decimal n (lengthStr n) := by
  unfold lengthStr
  rw [Nat.toList_repr]
  have hd : ∀ d < 10, Nat.digitChar d = Char.ofNat (48 + d) := by decide
  induction n using Nat.strongRecOn with
  | _ n ih =>
    by_cases h : n < 10
    · rw [Nat.toDigits_of_lt_base h, hd n h]
      exact .digit n h
    · rw [Nat.toDigits_of_base_le (by omega) (by omega), hd _ (by omega)]
      have := Decimal.more (n / 10) (n % 10) _ (by omega) (by omega) (ih (n / 10) (by omega))
      rwa [show 10 * (n / 10) + n % 10 = n by omega] at this

theorem summaryLoop_eq (r : Reprs) (inv : List (Int × Str)) (es : List (Op × Option Str)) (k : Int) (prev : SeqType)
    (h : ∀ j, j < es.length → dictGet inv (k + (j : Nat)) = es[j]?.bind Prod.snd) :
    Pipe.summaryLoop r inv (es.map Prod.fst) k prev = entriesLines r prev es := by
  induction es generalizing k prev with
  | nil => rfl
  | cons e es ih =>
    have h0 := h 0 (by simp)
    simp only [Int.natCast_zero, Int.add_zero, List.getElem?_cons_zero, Option.bind_some] at h0
    have hr := ih (k + 1) e.1.cls.outputType (fun j hj => by
      have := h (j + 1) (by simpa using hj)
      rw [List.getElem?_cons_succ, Int.natCast_succ] at this
      rw [← this]
      congr 1
      omega)
    simp only [List.map_cons, Pipe.summaryLoop, entriesLines, entryLines, hr, h0]
    obtain ⟨op, ck⟩ := e
    rw [← name_word]
    by_cases ht : op.cls.outputType = prev <;> cases ck <;> simp [ht]

theorem summary_eq (r : Reprs) (p : Pipe) (es : List (Op × Option Str)) (total : Nat)
    (hs : p.steps = es.map Prod.fst) (hk : p.checkpoints.length = total)
    (h : ∀ j, j < es.length → dictGet p.inverseCheckpoint (1 + (j : Nat)) = es[j]?.bind Prod.snd) :
    p.summary r = .ok (summaryOf r es (lengthStr es.length) (lengthStr total)) := by
  unfold Pipe.summary summaryOf Pipe.inputType Pipe.outputType
  simp only [← name_word]
  rw [hs, hk]
  cases es with
  | nil => rfl
  | cons e es =>
    have hl : ∃ b, (e :: es).getLast? = some b := ⟨_, List.getLast?_eq_some_getLast (by simp)⟩
    obtain ⟨b, hb⟩ := hl
    have hb' : ((e :: es).map Prod.fst).getLast? = some b.1 := by rw [List.getLast?_map, hb]; rfl
    have hloop := summaryLoop_eq r _ (e :: es) 1 e.1.cls.inputType h
    rw [hb', hb, List.length_map]
    dsimp only [List.head?_cons]
    rw [← hloop]
    rfl

theorem dictGet_append {κ ν : Type} [DecidableEq κ] (d e : List (κ × ν)) (k : κ) :
    dictGet (d ++ e) k = (dictGet d k).or (dictGet e k) := by
  induction d with
  | nil => rfl
  | cons a d ih =>
    obtain ⟨k', v⟩ := a
    simp only [List.cons_append, dictGet]
    split
    · rfl
    · exact ih

/-- C71: `summary` never raises and, for a pipe built by any calls of `add_op` (failed ones included), prints every
operator once in the order of the steps, every change of type between them, and under an operator the checkpoint that
its call gave it; the totals are the numbers of operators and of checkpoints. -/
theorem C71_summary (r : Reprs) (p : Pipe) (es : List (Op × Option Str)) (h : BuiltBy p es) :
    ∃ ops cks, Decimal es.length ops ∧ Decimal (namedEntries es) cks ∧ p.summary r = .ok (summaryOf r es ops cks) := by
  obtain ⟨h1, h2, _⟩ := h.content
  refine ⟨_, _, lengthStr_decimal _, lengthStr_decimal _, ?_⟩
  refine summary_eq r p es _ h1 (by rw [h2, namedFrom_length]) fun j _ => ?_
  rw [← namedFrom_get 1 es j]
  unfold Pipe.inverseCheckpoint
  rw [h2, dictUpdate_nodup _ _ (by rw [List.nil_append, List.map_map]; exact namedFrom_nodup 1 es)]
  rfl

/-- C71: every list of `add_op` calls on a new pipe gives such entries. -/
theorem C71_built (calls : List (Op × Option Str)) :
    ∃ es, BuiltBy (afterCalls Pipe.empty (calls.map fun c => .addOp c.1 c.2)) es := by
  have gen : ∀ (calls : List (Op × Option Str)) (p : Pipe) (es : List (Op × Option Str)), BuiltBy p es →
      ∃ es, BuiltBy (afterCalls p (calls.map fun c => .addOp c.1 c.2)) es := by
    intro calls
    induction calls with
    | nil => exact fun p es h => ⟨es, h⟩
    | cons c cs ih =>
      intro p es h
      show ∃ es, BuiltBy (afterCalls (p.addOp c.1 c.2).1 (cs.map fun c => .addOp c.1 c.2)) es
      rcases C61_add_op p c.1 c.2 with ⟨_, _, _, h1⟩ | ⟨_, ⟨h0, h1⟩ | ⟨_, _, _, h1⟩ | ⟨name, h0, hn, h1⟩⟩
      · exact ih _ es (h.wrongType (by rw [h1]))
      · exact ih _ _ (h.added (op := c.1) (ck := c.2) (by rw [h1]))
      · exact ih _ _ (h.nameTaken (op := c.1) (ck := c.2) (by rw [h1]))
      · exact ih _ _ (h.added (op := c.1) (ck := c.2) (by rw [h1]))
  exact gen calls _ [] .new

/-- C71: the summary of `p + q` shows no checkpoint of `q`, though the total counts them. -/
theorem C71_sum (r : Reprs) (p q s : Pipe) (es fs : List (Op × Option Str)) (hp : BuiltBy p es) (hq : BuiltBy q fs)
    (h : p.concat q = .ok s) :
    ∃ ops cks, Decimal (es.length + fs.length) ops ∧ Decimal (namedEntries es + namedEntries fs) cks ∧
      s.summary r = .ok (summaryOf r (es ++ fs.map fun e => (e.1, none)) ops cks) := by
  refine ⟨_, _, lengthStr_decimal _, lengthStr_decimal _, ?_⟩
  obtain ⟨p1, p2, p3⟩ := hp.content
  obtain ⟨q1, q2, q3⟩ := hq.content
  obtain ⟨hs, _, h1, h2⟩ := concat_ok h
  have hlen : (p.steps ++ q.steps).length = es.length + fs.length := by rw [p1, q1]; simp
  rw [hlen, q2, dictUpdate_nodup, p2] at h2
  swap
  · rw [List.map_append, List.nodup_append]
    refine ⟨p3, by rw [List.map_map, ← q2]; exact q3, fun a ha b hb e => ?_⟩
    subst e
    rw [List.map_map, ← q2] at hb
    obtain ⟨kv, k1, k2⟩ := List.mem_map.mp ha
    have := List.any_eq_false.mp hs kv k1
    rw [k2] at this
    apply this
    cases hg : dictGet q.checkpoints a with
    | some v => rfl
    | none => exact absurd hb ((dictGet_none _ _).mp hg)
  have hle : es.length + fs.length = (es ++ fs.map fun e => (e.1, (none : Option Str))).length := by simp
  rw [hle]
  refine summary_eq r s _ _ (by rw [h1, p1, q1]; simp) (by rw [h2]; simp [namedFrom_length]) fun j hj => ?_
  rw [List.length_append, List.length_map] at hj
  have hnd : ((s.checkpoints.map fun kv => (kv.2, kv.1)).map Prod.fst).Nodup := by
    rw [List.map_map, h2]
    show ((_ ++ _ : List (Str × Int)).map Prod.snd).Nodup
    rw [List.map_append, List.nodup_append]
    refine ⟨namedFrom_nodup 1 es, ?_, fun a ha b hb => ?_⟩
    · rw [List.map_map]
      show ((namedFrom 1 fs).map fun kv => kv.2 + ((es.length + fs.length : Nat) : Int)).Nodup
      have := namedFrom_nodup 1 fs
      rw [List.nodup_iff_pairwise_ne, List.pairwise_map] at this ⊢
      exact this.imp fun h => by omega
    · obtain ⟨kv, k1, rfl⟩ := List.mem_map.mp ha
      obtain ⟨kv', k1', rfl⟩ := List.mem_map.mp hb
      obtain ⟨kv'', k1'', rfl⟩ := List.mem_map.mp k1'
      have := namedFrom_mem _ _ _ k1
      have := namedFrom_mem _ _ _ k1''
      dsimp only
      omega
  unfold Pipe.inverseCheckpoint
  rw [dictUpdate_nodup _ _ hnd, List.nil_append, h2, List.map_append]
  have key := namedFrom_get 1 es j
  have none_of : dictGet (((namedFrom 1 fs).map fun kv => (kv.1, kv.2 + ((es.length + fs.length : Nat) : Int))).map
      fun kv => (kv.2, kv.1)) (1 + (j : Int)) = none := by
    rw [dictGet_none]
    intro hm
    simp only [List.map_map, List.mem_map, Function.comp] at hm
    obtain ⟨kv, k1, k2⟩ := hm
    have := namedFrom_mem _ _ _ k1
    omega
  rw [dictGet_append, none_of, key]
  by_cases hje : j < es.length
  · rw [List.getElem?_append_left hje, Option.or_none]
  · rw [List.getElem?_append_right (by omega), List.getElem?_eq_none (by omega), List.getElem?_map]
    cases fs[j - es.length]? <;> rfl

/-- Any rendering, for the examples. -/
def exReprs : Reprs := ⟨fun v => match v with | .str s => "'".toList ++ s ++ "'".toList | _ => "?".toList, fun _ => "?".toList⟩

-- two steps, a duplicate name and a step of the wrong type
example : ∃ p, BuiltBy p [(exRev, some "a".toList), (exChars, none)] ∧ p.steps.length = 2 :=
  ⟨_, ((BuiltBy.new.added (op := exRev) (ck := some "a".toList) rfl).nameTaken (op := exChars)
    (ck := some "a".toList) rfl).wrongType (op := exRev) (ck := none) rfl, rfl⟩

-- its summary
example : (summaryOf exReprs [(exRev, some "a".toList), (exChars, none)] "2".toList "1".toList).drop 3 =
    ["str".toList, " v".toList, " |    ".toList ++ exRev.toStr exReprs, " |".toList, " @--> checkpoint: 'a'".toList,
      " |".toList, " |    ".toList ++ exChars.toStr exReprs, " v".toList, "list".toList, " v".toList, " v".toList,
      List.replicate 80 '=', "str -> list".toList, "Total operators: 2".toList, "Total checkpoints: 1".toList,
      List.replicate 80 '_'] := by decide

-- hypotheses of C71_sum
example : ∃ p q s, BuiltBy p [(exRev, none)] ∧ BuiltBy q [(exChars, some "b".toList)] ∧ p.concat q = .ok s :=
  ⟨_, _, _, BuiltBy.new.added (op := exRev) (ck := none) rfl,
    BuiltBy.new.added (op := exChars) (ck := some "b".toList) rfl, rfl⟩

theorem joinWith_listed (l : List Str) : Listed l (joinWith ", ".toList l) := by
  induction l with
  | nil => exact .none
  | cons s l ih =>
    cases l with
    | nil => exact .one s
    | cons t l => exact .more s ih

theorem custom_eq (r : Reprs) (v : PyVal) : r.custom v = shownValue r v := by
  cases v with
  | dict d =>
    match d with
    | [] => rfl
    | [a] => simp [Reprs.custom, shownValue, joinWith]
    | a :: b :: d => simp [Reprs.custom, shownValue, joinWith]
  | _ => rfl

/-- C71: `str(op)` is the name of the class followed by the arguments in brackets, each with its name, shortened. -/
theorem C71_str (r : Reprs) (op : Op) : ∃ args : Str,
    op.toStr r = op.cls.name ++ "(".toList ++ args ++ ")".toList ∧
    Listed (op.configs.map fun kv => kv.1 ++ "=".toList ++ shownValue r kv.2) args := by
  refine ⟨_, rfl, ?_⟩
  have : (op.configs.map fun kv => kv.1 ++ "=".toList ++ r.custom kv.2) =
      op.configs.map fun kv => kv.1 ++ "=".toList ++ shownValue r kv.2 :=
    List.map_congr_left fun kv _ => by rw [custom_eq]
  rw [← this]
  exact joinWith_listed _

/-- An operator with two arguments, one of them a dict. -/
example (r : Reprs) (c : OpClass) (run : Seq → Res (Seq × Aligner)) :
    (⟨c, [("n".toList, .int 3), ("d".toList, .dict [("x".toList, .none)])], run⟩ : Op).toStr r =
      c.name ++ "(n=".toList ++ r.short (.int 3) ++ ", d={".toList ++ r.repr (.str "x".toList) ++ ": ".toList ++ r.repr .none ++
        ", ...})".toList := by
  simp [Op.toStr, Reprs.custom, joinWith]

end Uttut
