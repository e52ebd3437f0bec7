import Verif.Spec.Messages
import Verif.Props.Data
import Verif.Props.Summary
import Verif.Lemmas.Json

/-!
C82: what the texts of exceptions and the `repr`s of values say.
-/

namespace Uttut

open Spec

/-! ### Numbers in texts -/

theorem hexDigit_ofNat : ∀ d, d < 10 → Json.hexDigit d = Char.ofNat (48 + d) := by decide

theorem natStr_of_decimal {n : Nat} {t : Str} (h : Decimal n t) : ∀ fuel, n < fuel → Json.natStr fuel n = t := by
  induction h with
  | digit n h =>
    intro fuel hf
    obtain ⟨f, rfl⟩ : ∃ f, fuel = f + 1 := ⟨fuel - 1, by omega⟩
    rw [Json.natStr, if_pos h, hexDigit_ofNat n h]
  | more n d t hn hd h ih =>
    intro fuel hf
    obtain ⟨f, rfl⟩ : ∃ f, fuel = f + 1 := ⟨fuel - 1, by omega⟩
    rw [Json.natStr, if_neg (by omega), show (10 * n + d) / 10 = n by omega, show (10 * n + d) % 10 = d by omega,
      ih f (by omega), hexDigit_ofNat d hd]

theorem fmtInt_numeral (i : Int) : Numeral i (fmtInt i) := by
  have hd := lengthStr_decimal i.natAbs
  have hn := natStr_of_decimal hd (i.natAbs + 1) (by omega)
  unfold fmtInt Json.intStr
  rw [hn]
  by_cases h : i < 0
  · rw [if_pos h]
    have := Numeral.neg i.natAbs _ (by omega) hd
    rwa [show -(i.natAbs : Int) = i by omega] at this
  · rw [if_neg h]
    have := Numeral.nat i.natAbs _ hd
    rwa [show (i.natAbs : Int) = i by omega] at this

theorem numeral_iff (i : Int) (t : Str) : Numeral i t ↔ t = fmtInt i := by
  refine ⟨fun h => ?_, fun h => h ▸ fmtInt_numeral i⟩
  cases h with
  | nat n t h =>
    unfold fmtInt Json.intStr
    rw [if_neg (by omega), Int.natAbs_natCast, natStr_of_decimal h _ (by omega)]
  | neg n t hn h =>
    unfold fmtInt Json.intStr
    rw [if_pos (by omega), Int.natAbs_neg, Int.natAbs_natCast, natStr_of_decimal h _ (by omega)]

theorem fmtInt_append {i j : Int} {a b : Str} (ha : Json.Stops a) (hb : Json.Stops b)
    (h : fmtInt i ++ a = fmtInt j ++ b) : i = j ∧ a = b := by
  have h1 := Json.parseInt_intStr i a ha
  have h2 := Json.parseInt_intStr j b hb
  unfold fmtInt at h
  rw [h, h2] at h1
  injection h1 with h1
  injection h1 with h1 h3
  exact ⟨h1.symm, h3.symm⟩

/-- The text starts with a character that cannot continue a number. -/
def opensNoNumber : Str → Bool
  | c :: _ => !Json.isDigitChar c && c != '.' && c != 'e' && c != 'E'
  | [] => false

theorem stops_append (s r : Str) (h : opensNoNumber s = true) : Json.Stops (s ++ r) := by
  match s, h with
  | c :: s, h =>
    intro d hd
    have hd : some c = some d := hd
    injection hd with hd
    subst hd
    unfold opensNoNumber at h
    simp only [Bool.and_eq_true, Bool.not_eq_true', bne_iff_ne] at h
    exact ⟨h.1.1.1, h.1.1.2, h.1.2, h.2⟩

/-! ### The same outcomes -/

theorem checkPositions_plain (u : Str) (es : List Entity) : plain (checkPositionsM u es) = checkPositions u es := by
  induction es with
  | nil => rfl
  | cons e es ih =>
    unfold checkPositionsM checkPositions
    split
    · rfl
    · exact ih

theorem checkOverlaps_plain (u : Str) (es : List Entity) : plain (checkOverlapsM u es) = checkOverlaps es := by
  match es with
  | [] => rfl
  | [_] => rfl
  | e :: f :: es =>
    unfold checkOverlapsM checkOverlaps
    split
    · rfl
    · exact checkOverlaps_plain u (f :: es)

theorem plain_bind {α β : Type} (x : ResM α) (f : α → ResM β) : plain (x >>= f) = plain x >>= fun a => plain (f a) := by
  cases x <;> rfl

theorem mapM_plain {α β : Type} (f : α → ResM β) (l : List α) :
    plain (l.mapM f) = l.mapM fun a => plain (f a) := by
  induction l with
  | nil => rfl
  | cons a l ih =>
    rw [List.mapM_cons, List.mapM_cons, plain_bind]
    congr 1
    funext b
    rw [plain_bind, ih]
    rfl

theorem findIndex_plain (what : Str) (m : List (Str × Int)) (i : Int) :
    plain (OrdinalLabel.findIndexM what m i) = OrdinalLabel.findIndex m i := by
  induction m with
  | nil => rfl
  | cons kv m ih =>
    obtain ⟨k, v⟩ := kv
    unfold OrdinalLabel.findIndexM OrdinalLabel.findIndex
    split
    · rfl
    · exact ih

/-- C82: creating data raises what it raises, whatever the text. -/
theorem C82_datum_same (u : Str) (is : Option (List Intent)) (es : Option (List Entity)) :
    plain (Datum.newM u is es) = Datum.new u is es := by
  unfold Datum.newM Datum.new
  rw [plain_bind, checkPositions_plain]
  congr 1
  funext _
  rw [plain_bind, checkOverlaps_plain]
  rfl

/-- C82: so does `humanize`. -/
theorem C82_humanize_same (σ : SetOrder) (t : OrdinalLabel) (d : Datum) :
    plain (t.humanizeM σ d) = t.humanize σ d := by
  unfold OrdinalLabel.humanizeM OrdinalLabel.humanize
  rw [plain_bind, mapM_plain]
  congr 1
  · congr 1
    funext i
    exact findIndex_plain _ _ _
  · funext names
    split
    · rw [plain_bind, mapM_plain]
      congr 1
      congr 1
      funext e
      unfold OrdinalLabel.humanizeEntityM OrdinalLabel.humanizeEntity
      rw [plain_bind]
      exact congrArg (· >>= _) (findIndex_plain _ _ _)
    · rfl

/-! ### Data -/

theorem checkPositionsM_error (u : Str) (es : List Entity) (x : Exc) (text : Str) :
    checkPositionsM u es = .error (x, text) ↔
      x = .entityPositionError ∧ ∃ e, FirstNot (ValueAt u) es e ∧ text = msgEntityWrongPosition u e := by
  induction es with
  | nil =>
    refine ⟨fun h => (nomatch h), ?_⟩
    rintro ⟨_, e, ⟨xs, ys, h, _⟩, _⟩
    cases xs <;> cases h
  | cons a es ih =>
    unfold checkPositionsM entityPositionCorrect
    by_cases ha : ValueAt u a
    · rw [if_pos (show a.value = _ from ha), if_neg (by decide), ih]
      refine and_congr_right fun _ => exists_congr fun e => and_congr_left fun _ => ?_
      constructor
      · rintro ⟨xs, ys, h, h1, h2⟩
        exact ⟨a :: xs, ys, by rw [h]; rfl, fun y hy => by
          rcases List.mem_cons.mp hy with rfl | hy
          · exact ha
          · exact h1 y hy, h2⟩
      · rintro ⟨xs, ys, h, h1, h2⟩
        match xs, h with
        | [], h => exact absurd ((List.cons.inj h).1 ▸ ha) h2
        | x :: xs, h => exact ⟨xs, ys, (List.cons.inj h).2, fun y hy => h1 y (List.mem_cons_of_mem _ hy), h2⟩
    · rw [if_neg (show ¬ a.value = _ from ha), if_pos rfl]
      constructor
      · intro h
        injection h with h
        injection h with h1 h2
        exact ⟨h1.symm, a, ⟨[], es, rfl, fun y hy => (nomatch hy), ha⟩, h2.symm⟩
      · rintro ⟨rfl, e, ⟨xs, ys, h, h1, h2⟩, rfl⟩
        match xs, h with
        | [], h => rw [(List.cons.inj h).1]
        | x :: xs, h => exact absurd ((List.cons.inj h).1 ▸ h1 x (List.mem_cons_self ..)) ha

theorem checkPositionsM_ok (u : Str) (es : List Entity) :
    checkPositionsM u es = .ok () ↔ ∀ e ∈ es, ValueAt u e := by
  induction es with
  | nil => exact ⟨fun _ e he => (nomatch he), fun _ => rfl⟩
  | cons a es ih =>
    unfold checkPositionsM entityPositionCorrect
    rw [List.forall_mem_cons]
    by_cases ha : ValueAt u a
    · rw [if_pos (show a.value = _ from ha), if_neg (by decide), ih]
      exact ⟨fun h => ⟨ha, h⟩, fun h => h.2⟩
    · rw [if_neg (show ¬ a.value = _ from ha), if_pos rfl]
      exact ⟨fun h => (nomatch h), fun h => absurd h.1 ha⟩

theorem checkOverlapsM_error (u : Str) (es : List Entity) (x : Exc) (text : Str) :
    checkOverlapsM u es = .error (x, text) ↔
      x = .entityOverlapping ∧ ∃ e f xs ys, es = xs ++ e :: f :: ys ∧ Neighbours Before (xs ++ [e]) ∧ ¬ Before e f ∧
        text = msgEntityOverlapping u e f := by
  match es with
  | [] =>
    refine ⟨fun h => (nomatch h), ?_⟩
    rintro ⟨_, e, f, xs, ys, h, _⟩
    cases xs <;> cases h
  | [a] =>
    refine ⟨fun h => (nomatch h), ?_⟩
    rintro ⟨_, e, f, xs, ys, h, _⟩
    match xs, h with
    | x :: xs, h => cases xs <;> cases (List.cons.inj h).2
  | a :: b :: es =>
    unfold checkOverlapsM overlap
    by_cases hab : Before a b
    · have hab' : ¬ a.stop > b.start := by unfold Before at hab; omega
      rw [if_neg (by simpa using hab'), checkOverlapsM_error u (b :: es)]
      refine and_congr_right fun _ => exists_congr fun e => exists_congr fun f => ?_
      constructor
      · rintro ⟨xs, ys, h, h1, h2⟩
        refine ⟨a :: xs, ys, by rw [h]; rfl, ?_, h2⟩
        match xs, h, h1 with
        | [], h, _ => exact ⟨(List.cons.inj h).1 ▸ hab, trivial⟩
        | x :: xs, h, h1 => exact ⟨(List.cons.inj h).1 ▸ hab, h1⟩
      · rintro ⟨xs, ys, h, h1, h2, h3⟩
        match xs, h, h1 with
        | [], h, _ =>
          have := List.cons.inj (List.cons.inj h).2
          exact absurd (this.1 ▸ (List.cons.inj h).1 ▸ hab) h2
        | x :: xs, h, h1 =>
          refine ⟨xs, ys, (List.cons.inj h).2, ?_, h2, h3⟩
          match xs, h1 with
          | [], _ => trivial
          | y :: xs, h1 => exact h1.2
    · have hab' : a.stop > b.start := by unfold Before at hab; omega
      rw [if_pos (by simpa using hab')]
      constructor
      · intro h
        injection h with h
        injection h with h1 h2
        exact ⟨h1.symm, a, b, [], es, rfl, trivial, hab, h2.symm⟩
      · rintro ⟨rfl, e, f, xs, ys, h, h1, h2, rfl⟩
        match xs, h, h1 with
        | [], h, _ =>
          have := List.cons.inj (List.cons.inj h).2
          rw [this.1, (List.cons.inj h).1]
        | [x], h, h1 =>
          have := List.cons.inj (List.cons.inj h).2
          exact absurd (this.1 ▸ (List.cons.inj h).1 ▸ h1.1) hab
        | x :: y :: xs, h, h1 =>
          have := List.cons.inj (List.cons.inj h).2
          exact absurd (this.1 ▸ (List.cons.inj h).1 ▸ h1.1) hab

theorem newM_error (u : Str) (is : Option (List Intent)) (es : List Entity) (x : Exc) (text : Str) :
    Datum.newM u is (some es) = .error (x, text) ↔
      checkPositionsM u (pySorted Entity.start es) = .error (x, text) ∨
        checkPositionsM u (pySorted Entity.start es) = .ok () ∧
          checkOverlapsM u (pySorted Entity.start es) = .error (x, text) := by
  unfold Datum.newM
  show (checkPositionsM u (pySorted Entity.start es) >>= fun _ =>
    checkOverlapsM u (pySorted Entity.start es) >>= fun _ => _) = _ ↔ _
  cases h1 : checkPositionsM u (pySorted Entity.start es) with
  | error y =>
    refine ⟨fun h => .inl (by injection h with h; rw [h]), fun h => ?_⟩
    rcases h with h | ⟨h, _⟩
    · injection h with h; rw [h]; rfl
    · cases h
  | ok a =>
    cases h2 : checkOverlapsM u (pySorted Entity.start es) with
    | error y =>
      refine ⟨fun h => .inr ⟨rfl, by injection h with h; rw [h]⟩, fun h => ?_⟩
      rcases h with h | ⟨_, h⟩
      · cases h
      · injection h with h; rw [h]; rfl
    | ok b =>
      refine ⟨fun h => (nomatch h), fun h => ?_⟩
      rcases h with h | ⟨_, h⟩ <;> cases h

/-- C82: a datum is refused for a wrong position exactly if some entity has a wrong value; the text of the exception
gives the place of the first such entity in order of starts, the value it expects there and the text that is there. -/
theorem C82_position (u : Str) (is : Option (List Intent)) (es : List Entity) (text : Str) :
    Datum.newM u is (some es) = .error (.entityPositionError, text) ↔
      ∃ e, FirstWrong u es e ∧ PositionText u e text := by
  rw [newM_error, checkPositionsM_error, checkOverlapsM_error]
  have key : ∀ e, FirstNot (ValueAt u) (pySorted Entity.start es) e ↔ FirstWrong u es e := by
    intro e
    refine exists_congr fun xs => exists_congr fun ys => and_congr ?_ Iff.rfl
    rw [isStableSort_int_iff]
    exact eq_comm
  have txt : ∀ e, text = msgEntityWrongPosition u e ↔ PositionText u e text := by
    intro e
    constructor
    · intro h
      exact ⟨_, _, fmtInt_numeral _, fmtInt_numeral _, h⟩
    · rintro ⟨s, t, hs, ht, h⟩
      rw [(numeral_iff _ _).mp hs, (numeral_iff _ _).mp ht] at h
      exact h
  constructor
  · rintro (⟨_, e, h1, h2⟩ | ⟨_, h, _⟩)
    · exact ⟨e, (key e).mp h1, (txt e).mp h2⟩
    · cases h
  · rintro ⟨e, h1, h2⟩
    exact .inl ⟨rfl, e, (key e).mpr h1, (txt e).mpr h2⟩

/-- C82: a datum is refused for overlapping entities exactly if all values are right and neighbours in order of starts
overlap; the text of the exception gives the first such pair. -/
theorem C82_overlap (u : Str) (is : Option (List Intent)) (es : List Entity) (text : Str) :
    Datum.newM u is (some es) = .error (.entityOverlapping, text) ↔
      ∃ e f, FirstOverlap u es e f ∧ OverlapText u e f text := by
  rw [newM_error, checkPositionsM_error, checkOverlapsM_error, checkPositionsM_ok]
  have vals : (∀ e ∈ pySorted Entity.start es, ValueAt u e) ↔ ∀ e ∈ es, ValueAt u e :=
    ⟨fun h e he => h e (mem_pySorted.mpr he), fun h e he => h e (mem_pySorted.mp he)⟩
  have txt : ∀ e f, text = msgEntityOverlapping u e f ↔ OverlapText u e f text := by
    intro e f
    constructor
    · intro h
      exact ⟨_, _, _, fmtInt_numeral _, fmtInt_numeral _, rfl, h⟩
    · rintro ⟨s, t, rest, hs, ht, hr, h⟩
      rw [(numeral_iff _ _).mp hs, (numeral_iff _ _).mp ht, hr] at h
      exact h
  rw [vals]
  constructor
  · rintro (⟨h, _⟩ | ⟨hv, _, e, f, xs, ys, h1, h2, h3, h4⟩)
    · cases h
    · exact ⟨e, f, ⟨hv, xs, ys, (isStableSort_int_iff _ _ _).mpr h1.symm, h2, h3⟩, (txt e f).mp h4⟩
  · rintro ⟨e, f, ⟨hv, xs, ys, h1, h2, h3⟩, h4⟩
    exact .inr ⟨hv, rfl, e, f, xs, ys, ((isStableSort_int_iff _ _ _).mp h1).symm, h2, h3, (txt e f).mpr h4⟩

theorem cut_at {c : Char} {a b x y : Str} (ha : c ∉ a) (hb : c ∉ b) (h : a ++ c :: x = b ++ c :: y) : a = b ∧ x = y := by
  induction a generalizing b with
  | nil =>
    match b, h with
    | [], h => exact ⟨rfl, (List.cons.inj h).2⟩
    | d :: b, h => exact absurd ((List.cons.inj h).1 ▸ List.mem_cons_self ..) hb
  | cons d a ih =>
    match b, h with
    | [], h => exact absurd ((List.cons.inj h).1 ▸ List.mem_cons_self ..) ha
    | e :: b, h =>
      obtain ⟨h1, h2⟩ := ih (fun hc => ha (List.mem_cons_of_mem _ hc)) (fun hc => hb (List.mem_cons_of_mem _ hc))
        (List.cons.inj h).2
      exact ⟨by rw [(List.cons.inj h).1, h1], h2⟩

/-- C82: the place can be read off the text; if the values have one line each, so can the expected value and the text
found. -/
theorem C82_position_read (u v : Str) (e f : Entity) (text : Str) (he : PositionText u e text)
    (hf : PositionText v f text) :
    e.start = f.start ∧ e.stop = f.stop ∧
      ('\n' ∉ e.value → '\n' ∉ f.value →
        e.value = f.value ∧ pySlice u e.start e.stop = pySlice v f.start f.stop) := by
  obtain ⟨s, t, hs, ht, rfl⟩ := he
  obtain ⟨s', t', hs', ht', h⟩ := hf
  rw [(numeral_iff _ _).mp hs, (numeral_iff _ _).mp ht, (numeral_iff _ _).mp hs', (numeral_iff _ _).mp ht'] at h
  simp only [List.append_assoc] at h
  have h := List.append_cancel_left h
  obtain ⟨h1, h⟩ := fmtInt_append (stops_append _ _ (by decide)) (stops_append _ _ (by decide)) h
  have h := List.append_cancel_left h
  obtain ⟨h2, h⟩ := fmtInt_append (stops_append _ _ (by decide)) (stops_append _ _ (by decide)) h
  have h := List.append_cancel_left h
  refine ⟨h1, h2, fun he hf => ?_⟩
  have hsep : ∀ w r : Str, w ++ (",\n        but got ".toList ++ r) =
      (w ++ [',']) ++ '\n' :: ("        but got ".toList ++ r) := fun w r => by rw [List.append_assoc]; rfl
  rw [hsep, hsep] at h
  have hno : ∀ w : Str, '\n' ∉ w → '\n' ∉ w ++ [','] := by
    intro w hw h
    rcases List.mem_append.mp h with h | h
    · exact hw h
    · revert h; decide
  obtain ⟨h3, h⟩ := cut_at (hno _ he) (hno _ hf) h
  exact ⟨List.append_cancel_right h3, List.append_cancel_right (List.append_cancel_left h)⟩

/-! ### Names of labels -/

theorem mapM_errorM {α β : Type} (f : α → ResM β) (l : List α) (y : Exc × Str) :
    l.mapM f = .error y ↔ ∃ xs a ys, l = xs ++ a :: ys ∧ (∀ b ∈ xs, ∃ v, f b = .ok v) ∧ f a = .error y := by
  induction l with
  | nil =>
    refine ⟨fun h => (nomatch h), ?_⟩
    rintro ⟨xs, a, ys, h, _⟩
    cases xs <;> cases h
  | cons c l ih =>
    rw [List.mapM_cons]
    cases hc : f c with
    | error z =>
      show Except.error z = _ ↔ _
      constructor
      · intro h
        injection h with h
        exact ⟨[], c, l, rfl, fun b hb => (nomatch hb), h ▸ hc⟩
      · rintro ⟨xs, a, ys, h, h1, h2⟩
        match xs, h with
        | [], h => rw [← (List.cons.inj h).1, hc] at h2; injection h2 with h2; rw [h2]
        | x :: xs, h =>
          obtain ⟨v, hv⟩ := h1 x (List.mem_cons_self ..)
          rw [← (List.cons.inj h).1, hc] at hv
          cases hv
    | ok v =>
      have : (Except.ok v >>= fun b => l.mapM f >>= fun bs => pure (b :: bs)) = (Except.error y : ResM (List β)) ↔
          l.mapM f = .error y := by
        cases l.mapM f with
        | error z => exact ⟨fun h => by injection h with h; rw [h], fun h => by injection h with h; rw [h]; rfl⟩
        | ok w => exact ⟨fun h => (nomatch h), fun h => (nomatch h)⟩
      rw [this, ih]
      constructor
      · rintro ⟨xs, a, ys, h, h1, h2⟩
        exact ⟨c :: xs, a, ys, by rw [h]; rfl, fun b hb => by
          rcases List.mem_cons.mp hb with rfl | hb
          · exact ⟨v, hc⟩
          · exact h1 b hb, h2⟩
      · rintro ⟨xs, a, ys, h, h1, h2⟩
        match xs, h with
        | [], h => rw [← (List.cons.inj h).1, hc] at h2; cases h2
        | x :: xs, h => exact ⟨xs, a, ys, (List.cons.inj h).2, fun b hb => h1 b (List.mem_cons_of_mem _ hb), h2⟩

theorem findIndexM_error (what : Str) (m : List (Str × Int)) (i : Int) (y : Exc × Str) :
    OrdinalLabel.findIndexM what m i = .error y ↔
      (¬ ∃ name, (name, i) ∈ m) ∧ y = (.keyError, what ++ " index ".toList ++ fmtInt i ++ " not found".toList) := by
  induction m with
  | nil =>
    refine ⟨fun h => by injection h with h; exact ⟨fun ⟨_, h⟩ => (nomatch h), h.symm⟩, fun h => by rw [h.2]; rfl⟩
  | cons kv m ih =>
    obtain ⟨k, v⟩ := kv
    unfold OrdinalLabel.findIndexM
    by_cases h : i = v
    · rw [if_pos h]
      exact ⟨fun h => (nomatch h), fun h' => absurd ⟨k, h ▸ List.mem_cons_self ..⟩ h'.1⟩
    · rw [if_neg h, ih]
      refine and_congr_left fun _ => not_congr (exists_congr fun n => ?_)
      rw [List.mem_cons]
      exact ⟨.inr, fun h' => h'.resolve_left fun h' => h (by injection h')⟩

theorem findIndexM_ok (what : Str) (m : List (Str × Int)) (i : Int) :
    (∃ v, OrdinalLabel.findIndexM what m i = .ok v) ↔ ∃ name, (name, i) ∈ m := by
  cases h : OrdinalLabel.findIndexM what m i with
  | ok v =>
    refine ⟨fun _ => ?_, fun _ => ⟨v, rfl⟩⟩
    apply Classical.byContradiction
    intro hn
    rw [(findIndexM_error what m i _).mpr ⟨hn, rfl⟩] at h
    cases h
  | error y => exact ⟨fun ⟨_, h⟩ => (nomatch h), fun h' => absurd h' ((findIndexM_error what m i y).mp h).1⟩

theorem unknownText_iff (what : String) (n : Int) (text : Str) :
    UnknownText what n text ↔ text = what.toList ++ " index ".toList ++ fmtInt n ++ " not found".toList := by
  constructor
  · rintro ⟨s, hs, h⟩
    rw [h, (numeral_iff _ _).mp hs]
  · exact fun h => ⟨_, fmtInt_numeral _, h⟩

/-- C82: `humanize` raises nothing but KeyError. The text gives the first intent number without a name or, if all
intents have names, the first entity label without a name. -/
theorem C82_humanize (σ : SetOrder) (t : OrdinalLabel) (d : Datum) (x : Exc) (text : Str) :
    t.humanizeM σ d = .error (x, text) ↔ x = .keyError ∧
      ((∃ i, FirstNot (IntentNamed t) d.intents i ∧ UnknownText "Intent" i.label text) ∨
        (∀ i ∈ d.intents, IntentNamed t i) ∧
          ∃ e, FirstNot (EntityNamed t) d.entities e ∧ UnknownText "Entity" e.label text) := by
  have hi : ∀ y, (d.intents.mapM fun i => t.index2intentM i.label) = .error y ↔
      ∃ i, FirstNot (IntentNamed t) d.intents i ∧
        y = (.keyError, "Intent".toList ++ " index ".toList ++ fmtInt i.label ++ " not found".toList) := by
    intro y
    rw [mapM_errorM]
    constructor
    · rintro ⟨xs, a, ys, h, h1, h2⟩
      obtain ⟨h3, h4⟩ := (findIndexM_error _ _ _ _).mp h2
      exact ⟨a, ⟨xs, ys, h, fun b hb => (findIndexM_ok _ _ _).mp (h1 b hb), h3⟩, h4⟩
    · rintro ⟨a, ⟨xs, ys, h, h1, h3⟩, h4⟩
      exact ⟨xs, a, ys, h, fun b hb => (findIndexM_ok _ _ _).mpr (h1 b hb), (findIndexM_error _ _ _ _).mpr ⟨h3, h4⟩⟩
  have one : ∀ e : Entity, (∀ y, t.humanizeEntityM σ e = .error y ↔ t.index2entityM e.label = .error y) ∧
      ((∃ v, t.humanizeEntityM σ e = .ok v) ↔ ∃ v, t.index2entityM e.label = .ok v) := by
    intro e
    unfold OrdinalLabel.humanizeEntityM
    cases t.index2entityM e.label with
    | error z =>
      refine ⟨fun y => ⟨fun h => ?_, fun h => ?_⟩, ⟨fun ⟨_, h⟩ => (nomatch h), fun ⟨_, h⟩ => (nomatch h)⟩⟩
      · injection h with h; rw [h]
      · injection h with h; rw [h]; rfl
    | ok w => exact ⟨fun y => ⟨fun h => (nomatch h), fun h => (nomatch h)⟩, ⟨fun _ => ⟨_, rfl⟩, fun _ => ⟨_, rfl⟩⟩⟩
  have he : ∀ y, d.entities.mapM (t.humanizeEntityM σ) = .error y ↔
      ∃ e, FirstNot (EntityNamed t) d.entities e ∧
        y = (.keyError, "Entity".toList ++ " index ".toList ++ fmtInt e.label ++ " not found".toList) := by
    intro y
    rw [mapM_errorM]
    constructor
    · rintro ⟨xs, a, ys, h, h1, h2⟩
      obtain ⟨h3, h4⟩ := (findIndexM_error _ _ _ _).mp (((one a).1 y).mp h2)
      exact ⟨a, ⟨xs, ys, h, fun b hb => (findIndexM_ok _ _ _).mp ((one b).2.mp (h1 b hb)), h3⟩, h4⟩
    · rintro ⟨a, ⟨xs, ys, h, h1, h3⟩, h4⟩
      exact ⟨xs, a, ys, h, fun b hb => (one b).2.mpr ((findIndexM_ok _ _ _).mpr (h1 b hb)),
        ((one a).1 y).mpr ((findIndexM_error _ _ _ _).mpr ⟨h3, h4⟩)⟩
  have allNamed : ∀ {v}, (d.intents.mapM fun i => t.index2intentM i.label) = .ok v → ∀ i ∈ d.intents, IntentNamed t i := by
    intro v hv i him
    apply Classical.byContradiction
    intro hn
    obtain ⟨xs, a, ys, h, h1, h2⟩ : ∃ xs a ys, d.intents = xs ++ a :: ys ∧ (∀ b ∈ xs, IntentNamed t b) ∧ ¬ IntentNamed t a := by
      clear hv hi he one
      generalize d.intents = l at him
      induction l with
      | nil => cases him
      | cons c l ih =>
        by_cases hc : IntentNamed t c
        · rcases List.mem_cons.mp him with rfl | him
          · exact absurd hc hn
          · obtain ⟨xs, a, ys, h, h1, h2⟩ := ih him
            exact ⟨c :: xs, a, ys, by rw [h]; rfl, fun b hb => by
              rcases List.mem_cons.mp hb with rfl | hb
              · exact hc
              · exact h1 b hb, h2⟩
        · exact ⟨[], c, l, rfl, fun b hb => (nomatch hb), hc⟩
    rw [(hi _).mpr ⟨a, ⟨xs, ys, h, h1, h2⟩, rfl⟩] at hv
    cases hv
  have noFirst : (∀ i ∈ d.intents, IntentNamed t i) → ∀ i, ¬ FirstNot (IntentNamed t) d.intents i := by
    rintro h i ⟨xs, ys, h1, _, h3⟩
    exact h3 (h i (by rw [h1]; exact List.mem_append_right _ (List.mem_cons_self ..)))
  simp only [unknownText_iff]
  unfold OrdinalLabel.humanizeM
  cases hm : d.intents.mapM fun i => t.index2intentM i.label with
  | error y =>
    obtain ⟨i, h1, h2⟩ := (hi y).mp hm
    constructor
    · intro h
      injection h with h
      rw [h2] at h
      injection h with h3 h4
      exact ⟨h3.symm, .inl ⟨i, h1, h4.symm⟩⟩
    · rintro ⟨rfl, h | ⟨h, _⟩⟩
      · obtain ⟨j, h3, h4⟩ := h
        have := (hi (.keyError, text)).mpr ⟨j, h3, by rw [h4]⟩
        rw [hm] at this
        injection this with this
        rw [this]
        rfl
      · exact absurd h1 (noFirst h i)
  | ok names =>
    have hall := allNamed hm
    by_cases hh : d.hasEntities = true
    · show (if d.hasEntities then _ else _) = _ ↔ _
      rw [if_pos hh]
      cases hes : d.entities.mapM (t.humanizeEntityM σ) with
      | error y =>
        obtain ⟨e, h1, h2⟩ := (he y).mp hes
        constructor
        · intro h
          injection h with h
          rw [h2] at h
          injection h with h3 h4
          exact ⟨h3.symm, .inr ⟨hall, e, h1, h4.symm⟩⟩
        · rintro ⟨rfl, h | ⟨_, j, h3, h4⟩⟩
          · obtain ⟨j, h3, _⟩ := h
            exact absurd h3 (noFirst hall j)
          · have := (he (.keyError, text)).mpr ⟨j, h3, by rw [h4]⟩
            rw [hes] at this
            injection this with this
            rw [this]
            rfl
      | ok w =>
        refine ⟨fun h => (nomatch h), ?_⟩
        rintro ⟨_, ⟨j, h3, _⟩ | ⟨_, j, h3, _⟩⟩
        · exact absurd h3 (noFirst hall j)
        · have := (he _).mpr ⟨j, h3, rfl⟩
          rw [hes] at this
          cases this
    · show (if d.hasEntities then _ else _) = _ ↔ _
      rw [if_neg hh]
      refine ⟨fun h => (nomatch h), ?_⟩
      have hnil : d.entities = [] := by
        unfold Datum.hasEntities at hh
        rw [decide_eq_true_eq, Nat.not_lt, Nat.le_zero_eq] at hh
        exact List.length_eq_zero_iff.mp hh
      rintro ⟨_, ⟨j, h3, _⟩ | ⟨_, j, ⟨xs, ys, h3, _⟩, _⟩⟩
      · exact absurd h3 (noFirst hall j)
      · rw [hnil] at h3
        cases xs <;> cases h3

/-! ### Joining tokens -/

theorem positionIs_iff (i : Nat) (rest text : Str) : PositionIs i rest text ↔ text = fmtInt i ++ rest := by
  constructor
  · rintro ⟨s, hs, h⟩
    rw [h, (numeral_iff _ _).mp (.nat i s hs)]
  · intro h
    refine ⟨_, lengthStr_decimal i, ?_⟩
    rw [h, (numeral_iff _ _).mp (.nat i _ (lengthStr_decimal i))]

theorem compatLoopM_error (tokens : List Str) (spans : List Span) (hs : ∀ s ∈ spans, s.start ≤ s.stop) (k : Nat)
    (x : Exc) (text : Str) :
    Lst2Str.compatLoopM k tokens spans = .error (x, text) ↔
      x = .valueError ∧ ∃ i, FirstUnfit tokens spans i ∧ text = fmtInt ((k + i : Nat) : Int) ++ "-th element is not compatible.".toList := by
  induction tokens generalizing spans k with
  | nil =>
    refine ⟨fun h => (nomatch h), ?_⟩
    rintro ⟨_, i, ⟨_, t, s, h, _⟩, _⟩
    cases h
  | cons t ts ih =>
    match spans with
    | [] =>
      refine ⟨fun h => (nomatch h), ?_⟩
      rintro ⟨_, i, ⟨_, t, s, _, h, _⟩, _⟩
      cases h
    | s :: ss =>
      have hle := hs s (List.mem_cons_self ..)
      unfold Lst2Str.compatLoopM
      by_cases hf : FitsSpan t s
      · have hf' : ¬ (t.length : Int) ≠ (s.stop : Int) - s.start := by unfold FitsSpan at hf; omega
        rw [if_neg hf', ih ss (fun s h => hs s (List.mem_cons_of_mem _ h))]
        refine and_congr_right fun _ => ?_
        constructor
        · rintro ⟨i, ⟨h1, t', s', h2, h3, h4⟩, h5⟩
          refine ⟨i + 1, ⟨?_, t', s', h2, h3, h4⟩, by rw [h5]; congr 3; omega⟩
          intro j a b hj ha hb
          match j with
          | 0 => cases ha; cases hb; exact hf
          | j + 1 => exact h1 j a b (by omega) ha hb
        · rintro ⟨i, ⟨h1, t', s', h2, h3, h4⟩, h5⟩
          match i, h2, h3 with
          | 0, h2, h3 => cases h2; cases h3; exact absurd hf h4
          | i + 1, h2, h3 =>
            refine ⟨i, ⟨fun j a b hj ha hb => h1 (j + 1) a b (by omega) ha hb, t', s', h2, h3, h4⟩, ?_⟩
            rw [h5]; congr 3; omega
      · have hf' : (t.length : Int) ≠ (s.stop : Int) - s.start := by unfold FitsSpan at hf; omega
        rw [if_pos hf']
        constructor
        · intro h
          injection h with h
          injection h with h1 h2
          exact ⟨h1.symm, 0, ⟨fun j _ _ hj => absurd hj (by omega), t, s, rfl, rfl, hf⟩, h2.symm⟩
        · rintro ⟨rfl, i, ⟨h1, _⟩, h5⟩
          match i, h1 with
          | 0, _ => rw [h5]; rfl
          | i + 1, h1 => exact absurd (h1 0 t s (by omega) rfl rfl) hf

theorem compatLoop_plain (k : Nat) (tokens : List Str) (spans : List Span) :
    plain (Lst2Str.compatLoopM k tokens spans) = Lst2Str.compatLoop tokens spans := by
  induction tokens generalizing k spans with
  | nil => cases spans <;> rfl
  | cons t ts ih =>
    match spans with
    | [] => rfl
    | s :: ss =>
      unfold Lst2Str.compatLoopM Lst2Str.compatLoop
      split
      · rfl
      · exact ih _ ss

/-- C82: joining tokens raises what it raises. -/
theorem C82_join_same (l : List Str) (g : SpanGroup) : plain (Lst2Str.applyM l g) = Lst2Str.apply l g := by
  unfold Lst2Str.applyM Lst2Str.apply
  rw [plain_bind]
  refine congrArg (· >>= _) ?_
  unfold Lst2Str.validateCompatibilityM Lst2Str.validateCompatibility
  split
  · rfl
  · rw [plain_bind]
    have : plain (if l.isEmpty then (.ok [] : ResM (List Span)) else g.itemsM) =
        if l.isEmpty then .ok [] else g.items := by
      split
      · rfl
      · unfold SpanGroup.itemsM SpanGroup.items
        split <;> rfl
    rw [this]
    congr 1
    funext spans
    exact compatLoop_plain 0 l spans

theorem join_done (l : List Str) (g : SpanGroup) (hd : g.isDone = true) (hl : l.length = g.spans.length)
    (hs : ∀ s ∈ g.spans, s.start ≤ s.stop) (x : Exc) (text : Str) :
    Lst2Str.applyM l g = .error (x, text) ↔
      x = .valueError ∧ ∃ i, FirstUnfit l g.spans i ∧ PositionIs i "-th element is not compatible.".toList text := by
  have : Lst2Str.applyM l g = (Lst2Str.compatLoopM 0 l g.spans >>= fun _ => pure l.flatten) := by
    unfold Lst2Str.applyM Lst2Str.validateCompatibilityM SpanGroup.itemsM
    rw [if_neg (fun h => h hl), hd]
    cases l with
    | nil => rfl
    | cons t ts => rfl
  simp only [positionIs_iff]
  have key := compatLoopM_error l g.spans hs 0 x text
  simp only [Nat.zero_add] at key
  rw [this, ← key]
  cases Lst2Str.compatLoopM 0 l g.spans with
  | error y => exact ⟨fun h => by injection h with h; rw [h], fun h => by injection h with h; rw [h]; rfl⟩
  | ok v => exact ⟨fun h => (nomatch h), fun h => (nomatch h)⟩

/-- C82: exactly when a list of tokens is refused, and the text: another number of tokens than spans; a group that is not
finished; a token of another length than its span, where the text gives the position of the first such token. -/
theorem C82_join (l : List Str) (g : SpanGroup) (hs : ∀ s ∈ g.spans, s.start ≤ s.stop) (x : Exc) (text : Str) :
    Lst2Str.applyM l g = .error (x, text) ↔
      (l.length ≠ g.spans.length ∧ x = .valueError ∧
        text = "Input list and span group have different length.".toList) ∨
      (l.length = g.spans.length ∧ l ≠ [] ∧ g.isDone = false ∧ x = .runtimeError ∧
        text = "Please call `done` first.".toList) ∨
      (l.length = g.spans.length ∧ g.isDone = true ∧ x = .valueError ∧
        ∃ i, FirstUnfit l g.spans i ∧ PositionIs i "-th element is not compatible.".toList text) := by
  by_cases hl : l.length = g.spans.length
  · cases hd : g.isDone with
    | true =>
      rw [join_done l g hd hl hs]
      simp [hl]
    | false =>
      cases l with
      | nil =>
        have : g.spans = [] := List.length_eq_zero_iff.mp hl.symm
        have h1 : Lst2Str.applyM [] g = .ok [] := by
          unfold Lst2Str.applyM Lst2Str.validateCompatibilityM
          rw [if_neg (fun h => h hl)]
          rfl
        rw [h1]
        simp [this]
      | cons t ts =>
        have h1 : Lst2Str.applyM (t :: ts) g = .error (.runtimeError, "Please call `done` first.".toList) := by
          unfold Lst2Str.applyM Lst2Str.validateCompatibilityM SpanGroup.itemsM
          rw [if_neg (fun h => h hl), hd]
          rfl
        rw [h1]
        simp only [hl, ne_eq, not_true_eq_false, false_and, false_or, Bool.false_eq_true, and_false, or_false, true_and,
          reduceCtorEq, not_false_eq_true]
        constructor
        · intro h
          injection h with h
          injection h with h1 h2
          exact ⟨h1.symm, h2.symm⟩
        · rintro ⟨rfl, rfl⟩
          rfl
  · have h1 : Lst2Str.applyM l g =
        .error (.valueError, "Input list and span group have different length.".toList) := by
      unfold Lst2Str.applyM Lst2Str.validateCompatibilityM
      rw [if_pos hl]
      rfl
    rw [h1]
    simp only [hl, ne_eq, not_false_eq_true, true_and, false_and, or_false]
    constructor
    · intro h
      injection h with h
      injection h with h1 h2
      exact ⟨h1.symm, h2.symm⟩
    · rintro ⟨rfl, rfl⟩
      rfl

/-! ### Values of different types -/

theorem newValuesLoopM_error {V : Type} [NewValue V] (names : Nat → Str) (k : PyKind) (n : Nat) (reps : List (Rep V))
    (y : Exc × Str) :
    ReplacementGroup.newValuesLoopM names k n reps = .error y ↔
      ∃ i, (∀ j r, j < i → reps[j]? = some r → NewValue.kind r.val = k) ∧
        (∃ r, reps[i]? = some r ∧ NewValue.kind r.val ≠ k) ∧
        y = (.typeError, "the new_value of ".toList ++ fmtInt ((n + i : Nat) : Int) ++ "-th element is not a(an) ".toList ++
          k.typeName names) := by
  induction reps generalizing n with
  | nil =>
    refine ⟨fun h => (nomatch h), ?_⟩
    rintro ⟨i, _, ⟨r, h, _⟩, _⟩
    cases h
  | cons r rs ih =>
    unfold ReplacementGroup.newValuesLoopM
    by_cases hk : NewValue.kind r.val = k
    · rw [if_neg (fun h => h hk), ih]
      constructor
      · rintro ⟨i, h1, h2, h3⟩
        refine ⟨i + 1, ?_, h2, by rw [h3]; congr 5; omega⟩
        intro j q hj hq
        match j with
        | 0 => cases hq; exact hk
        | j + 1 => exact h1 j q (by omega) hq
      · rintro ⟨i, h1, ⟨q, h2, h4⟩, h3⟩
        match i, h2 with
        | 0, h2 => cases h2; exact absurd hk h4
        | i + 1, h2 =>
          exact ⟨i, fun j q hj hq => h1 (j + 1) q (by omega) hq, ⟨q, h2, h4⟩, by rw [h3]; congr 5; omega⟩
    · rw [if_pos hk]
      constructor
      · intro h
        injection h with h
        exact ⟨0, fun j _ hj => absurd hj (by omega), ⟨r, rfl, hk⟩, h.symm⟩
      · rintro ⟨i, h1, _, h3⟩
        match i, h1 with
        | 0, _ => rw [h3]; rfl
        | i + 1, h1 => exact absurd (h1 0 r (by omega) rfl) hk

/-- C82: the check of the types of new values raises what it raises. -/
theorem C82_kinds_same {V : Type} [NewValue V] (names : Nat → Str) (reps : List (Rep V)) :
    plain (ReplacementGroup.validateNewValuesM names reps) = ReplacementGroup.validateNewValues reps := by
  match reps with
  | [] => rfl
  | r :: rs =>
    unfold ReplacementGroup.validateNewValuesM ReplacementGroup.validateNewValues
    show plain (ReplacementGroup.newValuesLoopM names (NewValue.kind r.val) 0 (r :: rs)) =
      if (r :: rs).all (fun q => NewValue.kind q.val = NewValue.kind r.val) then .ok () else .error .typeError
    generalize NewValue.kind r.val = k
    generalize r :: rs = l
    generalize 0 = n
    induction l generalizing n with
    | nil => rfl
    | cons q qs ih =>
      unfold ReplacementGroup.newValuesLoopM
      by_cases hk : NewValue.kind q.val = k
      · rw [if_neg (fun h => h hk), ih]
        simp [hk]
      · rw [if_pos hk]
        simp [hk, plain]

/-- C82: the text gives the type of the first new value and the position of the first one with another type, both in
the order in which the set of the replacements lists them. -/
theorem C82_kinds {V : Type} [NewValue V] (names : Nat → Str) (reps : List (Rep V)) (text : Str) :
    ReplacementGroup.validateNewValuesM names reps = .error (.typeError, text) ↔
      ∃ i k s, FirstOtherKind reps i k ∧ Decimal i s ∧
        text = "the new_value of ".toList ++ s ++ "-th element is not a(an) ".toList ++ k.typeName names := by
  have dec : ∀ (i : Nat) s, Decimal i s ↔ s = fmtInt i := fun i s =>
    ⟨fun h => (numeral_iff _ _).mp (.nat i s h), fun h => by
      rw [h, ← (numeral_iff _ _).mp (.nat i _ (lengthStr_decimal i))]; exact lengthStr_decimal i⟩
  match reps with
  | [] =>
    refine ⟨fun h => (nomatch h), ?_⟩
    rintro ⟨i, k, s, ⟨⟨r, h, _⟩, _⟩, _⟩
    cases h
  | r :: rs =>
    show ReplacementGroup.newValuesLoopM names (NewValue.kind r.val) 0 (r :: rs) = _ ↔ _
    rw [newValuesLoopM_error]
    constructor
    · rintro ⟨i, h1, h2, h3⟩
      injection h3 with _ h3
      rw [Nat.zero_add] at h3
      exact ⟨i, _, _, ⟨⟨r, rfl, rfl⟩, h1, h2⟩, (dec i _).mpr rfl, h3⟩
    · rintro ⟨i, k, s, ⟨⟨q, hq, hk⟩, h1, h2⟩, hs, h3⟩
      cases hq
      subst hk
      exact ⟨i, h1, h2, by rw [h3, (dec i s).mp hs, Nat.zero_add]⟩

/-! ### Pipes, factories and checkpoints -/

/-- C82: `add_op` does what it does; the text of a TypeError gives the input type of the operator and the output type
of the last step, the text of a KeyError the name that is taken. -/
theorem C82_add_op (p : Pipe) (op : Op) (ck : Option Str) :
    (p.addOpM op ck).1 = (p.addOp op ck).1 ∧ plain (p.addOpM op ck).2 = (p.addOp op ck).2 ∧
      ∀ x text, (p.addOpM op ck).2 = .error (x, text) ↔
        (∃ last, p.steps.getLast? = some last ∧ op.cls.inputType ≠ last.cls.outputType ∧ x = .typeError ∧
          text = "InputType of the step op is not valid.Got <class '".toList ++ op.cls.inputType.word ++
            "'>, but requires <class '".toList ++ last.cls.outputType.word ++ "'>".toList) ∨
        ((∀ last, p.steps.getLast? = some last → op.cls.inputType = last.cls.outputType) ∧
          ∃ name, ck = some name ∧ name ∈ p.checkpoints.map Prod.fst ∧ x = .keyError ∧
            text = "duplicated checkpoints: ".toList ++ name) := by
  have hpush : (p.pushM op ck).1 = (p.push op ck).1 ∧ plain (p.pushM op ck).2 = (p.push op ck).2 ∧
      ∀ x text, (p.pushM op ck).2 = .error (x, text) ↔
        ∃ name, ck = some name ∧ name ∈ p.checkpoints.map Prod.fst ∧ x = .keyError ∧
            text = "duplicated checkpoints: ".toList ++ name := by
    unfold Pipe.pushM Pipe.push
    cases ck with
    | none => exact ⟨rfl, rfl, fun x text => ⟨fun h => (nomatch h), fun ⟨_, h, _⟩ => (nomatch h)⟩⟩
    | some name =>
      cases hg : dictGet p.checkpoints name with
      | none =>
        refine ⟨by simp only [hg], by simp only [hg]; rfl, fun x text => ?_⟩
        simp only [hg]
        refine ⟨fun h => (nomatch h), ?_⟩
        rintro ⟨n, h, h1, _⟩
        cases h
        exact absurd h1 ((dictGet_none _ _).mp hg)
      | some v =>
        refine ⟨by simp only [hg], by simp only [hg]; rfl, fun x text => ?_⟩
        simp only [hg]
        constructor
        · intro h
          injection h with h
          injection h with h1 h2
          refine ⟨name, rfl, ?_, h1.symm, h2.symm⟩
          apply Classical.byContradiction
          intro hn
          rw [(dictGet_none _ _).mpr hn] at hg
          cases hg
        · rintro ⟨n, h, _, rfl, rfl⟩
          cases h
          rfl
  unfold Pipe.addOpM Pipe.addOp
  cases hl : p.steps.getLast? with
  | none =>
    refine ⟨hpush.1, hpush.2.1, fun x text => (hpush.2.2 x text).trans ?_⟩
    constructor
    · exact fun h => .inr ⟨fun last h => (nomatch h), h⟩
    · rintro (⟨last, h, _⟩ | ⟨_, h⟩)
      · cases h
      · exact h
  | some last =>
    by_cases ht : op.cls.inputType = last.cls.outputType
    · simp only [ne_eq, ht, not_true_eq_false, if_false]
      refine ⟨hpush.1, hpush.2.1, fun x text => (hpush.2.2 x text).trans ?_⟩
      constructor
      · exact fun h => .inr ⟨fun l h => by injection h with h; rw [h], h⟩
      · rintro (⟨l, h, h1, _⟩ | ⟨_, h⟩)
        · injection h with h
          exact absurd (by rw [h]) h1
        · exact h
    · have hM : (match some last with
          | none => p.pushM op ck
          | some last =>
            if op.cls.inputType ≠ last.cls.outputType then
              (p, .error (.typeError, "InputType of the step op is not valid.Got ".toList ++ op.cls.inputType.shown ++
                ", but requires ".toList ++ last.cls.outputType.shown))
            else p.pushM op ck) = ((p, .error (.typeError, "InputType of the step op is not valid.Got ".toList ++
              op.cls.inputType.shown ++ ", but requires ".toList ++ last.cls.outputType.shown)) : Pipe × ResM Unit) :=
        if_pos ht
      have hP : (match some last with
          | none => p.push op ck
          | some last => if op.cls.inputType ≠ last.cls.outputType then (p, .error .typeError) else p.push op ck) =
            ((p, .error .typeError) : Pipe × Res Unit) := if_pos ht
      simp only [hM, hP]
      refine ⟨trivial, rfl, fun x text => ?_⟩
      have hw : ∀ (a b : SeqType), "InputType of the step op is not valid.Got ".toList ++ a.shown ++ ", but requires ".toList ++ b.shown =
          "InputType of the step op is not valid.Got <class '".toList ++ a.word ++ "'>, but requires <class '".toList ++ b.word ++
            "'>".toList := by
        intro a b
        cases a <;> cases b <;> rfl
      constructor
      · intro h
        injection h with h
        injection h with h1 h2
        exact .inl ⟨last, rfl, ht, h1.symm, by rw [← h2, hw]⟩
      · rintro (⟨l, h, _, rfl, rfl⟩ | ⟨h, _⟩)
        · injection h with h
          rw [← h, ← hw]
        · exact absurd (h last rfl) ht

/-- C82: `register`, looking up an operator and looking up a checkpoint do what they do; the texts of their KeyErrors
give the name. -/
theorem C82_names (f : Factory) (c : OpClass) (cks : List (Str × Int)) (coll : List Seq) (name : Str) :
    ((f.registerM name c).1 = (f.register name c).1 ∧ plain (f.registerM name c).2 = (f.register name c).2 ∧
      plain (f.getM name) = f.get name ∧
      plain (getFromCheckpointM cks coll name) = getFromCheckpoint cks coll name) ∧
    (∀ x text, (f.registerM name c).2 = .error (x, text) ↔
      name ∈ f.map Prod.fst ∧ x = .keyError ∧ text = name ++ " already exists.".toList) ∧
    (∀ x text, f.getM name = .error (x, text) ↔
      name ∉ f.map Prod.fst ∧ x = .keyError ∧ text = name ++ " is not registered".toList) ∧
    (∀ text, getFromCheckpointM cks coll name = .error (.keyError, text) ↔
      name ∉ cks.map Prod.fst ∧ text = name ++ " is not found.".toList) := by
  have mem : ∀ {β : Type} (d : List (Str × β)) v, dictGet d name = some v → name ∈ d.map Prod.fst := by
    intro β d v h
    apply Classical.byContradiction
    intro hn
    rw [(dictGet_none _ _).mpr hn] at h
    cases h
  refine ⟨?_, ?_, ?_, ?_⟩
  · unfold Factory.registerM Factory.register Factory.getM Factory.get getFromCheckpointM getFromCheckpoint
    refine ⟨?_, ?_, ?_, ?_⟩
    · cases dictGet f name <;> rfl
    · cases dictGet f name <;> rfl
    · cases dictGet f name <;> rfl
    · cases dictGet cks name with
      | none => rfl
      | some i =>
        simp only
        cases (pyIndex? coll.length i).bind fun j => coll[j]? <;> rfl
  · intro x text
    unfold Factory.registerM
    cases h : dictGet f name with
    | none => exact ⟨fun h => (nomatch h), fun h' => absurd h'.1 ((dictGet_none _ _).mp h)⟩
    | some v =>
      refine ⟨fun h' => ?_, fun h' => by rw [h'.2.1, h'.2.2]⟩
      injection h' with h'
      injection h' with h1 h2
      exact ⟨mem _ v h, h1.symm, h2.symm⟩
  · intro x text
    unfold Factory.getM
    cases h : dictGet f name with
    | none =>
      refine ⟨fun h' => ?_, fun h' => by rw [h'.2.1, h'.2.2]⟩
      injection h' with h'
      injection h' with h1 h2
      exact ⟨(dictGet_none _ _).mp h, h1.symm, h2.symm⟩
    | some v => exact ⟨fun h => (nomatch h), fun h' => absurd (mem _ v h) h'.1⟩
  · intro text
    unfold getFromCheckpointM
    cases h : dictGet cks name with
    | none =>
      refine ⟨fun h' => ?_, fun h' => by rw [h'.2]⟩
      injection h' with h'
      injection h' with h1 h2
      exact ⟨(dictGet_none _ _).mp h, h2.symm⟩
    | some v =>
      refine ⟨fun h' => ?_, fun h' => absurd (mem _ v h) h'.1⟩
      simp only at h'
      cases hc : (pyIndex? coll.length v).bind fun j => coll[j]? with
      | none => rw [hc] at h'; cases h'
      | some s => rw [hc] at h'; cases h'

/-! ### `repr` -/

/-- C82: two intents have the same `repr` exactly if they have the same label. -/
theorem C82_intent_repr (i j : Intent) : i.repr = j.repr ↔ i = j := by
  refine ⟨fun h => ?_, fun h => by rw [h]⟩
  unfold Intent.repr at h
  rw [List.append_assoc, List.append_assoc] at h
  have h := List.append_cancel_left h
  rw [← List.append_nil ">".toList] at h
  obtain ⟨h, _⟩ := fmtInt_append (stops_append _ _ (by decide)) (stops_append _ _ (by decide)) h
  cases i; cases j
  simp_all

/-- C82: entities with the same `repr` have the same label, and the same place and value if the values are equally
long. -/
theorem C82_entity_repr (σ : SetOrder) (e f : Entity) (h : e.repr σ = f.repr σ) :
    e.label = f.label ∧
      (e.value.length = f.value.length → e.value = f.value ∧ e.start = f.start ∧ e.stop = f.stop) := by
  unfold Entity.repr at h
  simp only [List.append_assoc] at h
  have h := List.append_cancel_left h
  obtain ⟨h1, h⟩ := fmtInt_append (stops_append _ _ (by decide)) (stops_append _ _ (by decide)) h
  have h := List.append_cancel_left h
  refine ⟨h1, fun hl => ?_⟩
  obtain ⟨h2, h⟩ := List.append_inj h hl
  have h := List.append_cancel_left h
  obtain ⟨h3, h⟩ := fmtInt_append (stops_append _ _ (by decide)) (stops_append _ _ (by decide)) h
  have h := List.append_cancel_left h
  obtain ⟨h4, _⟩ := fmtInt_append (stops_append _ _ (by decide)) (stops_append _ _ (by decide)) h
  exact ⟨h2, h3, h4⟩

/-- C82: entities with different replacements can have the same `repr`, and equal entities different ones. -/
theorem C82_entity_repr_ambiguous :
    (∃ e f : Entity, e.eq f = false ∧ ∀ σ : SetOrder, (∀ l : List Str, σ.iter Str l = l) → e.repr σ = f.repr σ) ∧
      ∃ (σ : SetOrder) (e f : Entity), e.eq f = true ∧ e.repr σ ≠ f.repr σ := by
  refine ⟨⟨⟨1, "a".toList, 0, 1, ["b, c".toList]⟩, ⟨1, "a".toList, 0, 1, ["b".toList, "c".toList]⟩, by decide, ?_⟩,
    SetOrder.id, ⟨1, "a".toList, 0, 1, ["b".toList, "c".toList]⟩, ⟨1, "a".toList, 0, 1, ["c".toList, "b".toList]⟩,
    by decide, by decide⟩
  intro σ hσ
  unfold Entity.repr SetOrder.listSet
  simp only [hσ]
  decide

/-- C82: two replacements by texts have the same `str` exactly if they are equal. -/
theorem C82_replacement_str (r s : Rep Str) : r.str = s.str ↔ r = s := by
  refine ⟨fun h => ?_, fun h => by rw [h]⟩
  unfold Rep.str at h
  simp only [List.append_assoc] at h
  have h := List.append_cancel_left h
  obtain ⟨h1, h⟩ := fmtInt_append (stops_append _ _ (by decide)) (stops_append _ _ (by decide)) h
  have h := List.append_cancel_left h
  obtain ⟨h2, h⟩ := fmtInt_append (stops_append _ _ (by decide)) (stops_append _ _ (by decide)) h
  have h := List.append_cancel_right (List.append_cancel_left h)
  cases r; cases s
  simp only [Rep.mk.injEq]
  exact ⟨Int.ofNat.inj h1, Int.ofNat.inj h2, h⟩

/-- C05: replacements are fit to be kept in sets: they are equal (`==`) exactly if bounds and new value are, and equal
ones have equal hashes; the hash is never -1, which CPython reserves for errors. -/
theorem C05_replacement_hash {V : Type} [DecidableEq V] (tupleHash : Nat × Nat → Int) (r s : Rep V) :
    (r.eq s = true ↔ r.start = s.start ∧ r.stop = s.stop ∧ r.val = s.val) ∧
      (r.eq s = true → r.hash tupleHash = s.hash tupleHash) ∧ r.hash tupleHash ≠ -1 ∧
      -2147483648 ≤ r.hash tupleHash ∧ r.hash tupleHash < 2147483648 := by
  have heq : r.eq s = true ↔ r.start = s.start ∧ r.stop = s.stop ∧ r.val = s.val := by
    unfold Rep.eq
    simp only [Bool.and_eq_true, beq_iff_eq]
    exact ⟨fun h => ⟨h.1.1.symm, h.1.2.symm, h.2.symm⟩, fun h => ⟨⟨h.1.symm, h.2.1.symm⟩, h.2.2.symm⟩⟩
  refine ⟨heq, fun h => ?_, ?_⟩
  · obtain ⟨h1, h2, _⟩ := heq.mp h
    unfold Rep.hash
    rw [h1, h2]
  · unfold Rep.hash
    have h1 := Int.le_bmod (x := tupleHash (r.start, r.stop)) (m := 4294967296) (by decide)
    have h2 := Int.bmod_lt (x := tupleHash (r.start, r.stop)) (m := 4294967296) (by decide)
    simp only [show (2 ^ 32 : Nat) = 4294967296 from rfl]
    generalize (tupleHash (r.start, r.stop)).bmod 4294967296 = b at h1 h2
    split <;> omega

/-- New values of two types. -/
instance : NewValue (Str ⊕ List Str) := ⟨fun v => match v with
  | .inl _ => .str
  | .inr _ => .list⟩

/-- C82: the same group with the same faulty replacement is blamed at different positions, and for different types,
under different iteration orders of sets. -/
theorem C82_kinds_order : ∃ (g : List (Rep (Str ⊕ List Str))),
    ReplacementGroup.validateNewValuesM (fun _ => []) (SetOrder.id.listSet g) =
        .error (.typeError, "the new_value of 2-th element is not a(an) str".toList) ∧
      ReplacementGroup.validateNewValuesM (fun _ => []) (SetOrder.rev.listSet g) =
        .error (.typeError, "the new_value of 1-th element is not a(an) list".toList) := by
  refine ⟨[⟨0, 1, .inl []⟩, ⟨2, 3, .inl []⟩, ⟨4, 5, .inr []⟩], ?_⟩
  decide

/-! ### Examples -/

/-- An entity with a wrong value, given after one that starts later and is wrong too. -/
example : ∃ text, Datum.newM "ab cd".toList none
      (some [⟨1, "x".toList, 3, 5, []⟩, ⟨2, "b".toList, 0, 1, []⟩]) = .error (.entityPositionError, text) ∧
    text = "\n        Utterance position 0 - 1 expected to be b,\n        but got a.\n    ".toList := ⟨_, by decide, rfl⟩

/-- Two pairs of entities overlap; the first is reported. -/
example : ∃ text, Datum.newM "abcd".toList none
      (some [⟨1, "cd".toList, 2, 4, []⟩, ⟨2, "bc".toList, 1, 3, []⟩, ⟨3, "ab".toList, 0, 2, []⟩]) =
        .error (.entityOverlapping, text) ∧
    FirstOverlap "abcd".toList [⟨1, "cd".toList, 2, 4, []⟩, ⟨2, "bc".toList, 1, 3, []⟩, ⟨3, "ab".toList, 0, 2, []⟩]
      ⟨3, "ab".toList, 0, 2, []⟩ ⟨2, "bc".toList, 1, 3, []⟩ := by
  refine ⟨_, rfl, by unfold ValueAt; decide, [], [⟨1, "cd".toList, 2, 4, []⟩],
    (isStableSort_int_iff _ _ _).mpr (by decide), trivial, by unfold Before; decide⟩

/-- The second of three tokens is too long. -/
example : Lst2Str.applyM ["ab".toList, "cde".toList, "f".toList] ⟨[⟨0, 2⟩, ⟨2, 4⟩, ⟨4, 5⟩], true⟩ =
    .error (.valueError, "1-th element is not compatible.".toList) := by decide

/-- A label without a name. -/
example : OrdinalLabel.humanizeM SetOrder.id ⟨[("greet".toList, 0)], [("city".toList, 1)], 0⟩
      ⟨"ab".toList, [⟨0⟩], [⟨1, "a".toList, 0, 1, []⟩, ⟨-7, "b".toList, 1, 2, []⟩]⟩ =
    .error (.keyError, "Entity index -7 not found".toList) := by decide

end Uttut
