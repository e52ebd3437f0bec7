import Verif.Lemmas.Dict
import Verif.Spec.Json

/-! `json.loads` inverts `json.dumps` on plain values. -/

namespace Uttut
namespace Json

theorem hexVal_hexDigit : ∀ d : Fin 16, hexVal? (hexDigit d.val) = some d.val := by decide

theorem hexVal_hexDigit' (d : Nat) (h : d < 16) : hexVal? (hexDigit d) = some d :=
  hexVal_hexDigit ⟨d, h⟩

theorem parseHex4_hex4 (n : Nat) (h : n < 65536) (r : Str) : parseHex4 (hex4 n ++ r) = some (n, r) := by
  unfold hex4
  show parseHex4 (_ :: _ :: _ :: _ :: r) = _
  unfold parseHex4
  dsimp only
  rw [hexVal_hexDigit' _ (by omega), hexVal_hexDigit' _ (by omega), hexVal_hexDigit' _ (by omega),
    hexVal_hexDigit' _ (by omega)]
  simp only [Option.bind_eq_bind, Option.bind_some, Option.pure_def, Option.some.injEq, Prod.mk.injEq,
    and_true]
  omega

theorem parseEscape_u (n : Nat) (h : n < 65536) (hs : ¬(0xd800 ≤ n ∧ n ≤ 0xdfff)) (r : Str) :
    parseEscape ('u' :: (hex4 n ++ r)) = some (Char.ofNat n, r) := by
  unfold parseEscape
  simp only [show ('u' : Char) ≠ '"' by decide, show ('u' : Char) ≠ '\\' by decide,
    show ('u' : Char) ≠ '/' by decide, show ('u' : Char) ≠ 'b' by decide,
    show ('u' : Char) ≠ 'f' by decide, show ('u' : Char) ≠ 'n' by decide,
    show ('u' : Char) ≠ 'r' by decide, show ('u' : Char) ≠ 't' by decide, if_false, if_true]
  rw [parseHex4_hex4 n h]
  simp only [Option.bind_eq_bind, Option.bind_some]
  rw [if_neg (by omega)]
  unfold unitChar
  rw [if_neg hs]
  rfl

theorem parseEscape_pair (n : Nat) (h : n < 0x100000) (r : Str) :
    parseEscape ('u' :: (hex4 (0xd800 + n / 0x400 % 0x400) ++
      ('\\' :: 'u' :: (hex4 (0xdc00 + n % 0x400) ++ r)))) = some (Char.ofNat (0x10000 + n), r) := by
  unfold parseEscape
  simp only [show ('u' : Char) ≠ '"' by decide, show ('u' : Char) ≠ '\\' by decide,
    show ('u' : Char) ≠ '/' by decide, show ('u' : Char) ≠ 'b' by decide,
    show ('u' : Char) ≠ 'f' by decide, show ('u' : Char) ≠ 'n' by decide,
    show ('u' : Char) ≠ 'r' by decide, show ('u' : Char) ≠ 't' by decide, if_false, if_true]
  rw [parseHex4_hex4 _ (by omega)]
  simp only [Option.bind_eq_bind, Option.bind_some]
  rw [if_pos (by omega), parseHex4_hex4 _ (by omega)]
  simp only [Option.bind_some]
  rw [if_pos (by omega)]
  simp only [Option.pure_def, Option.some.injEq, Prod.mk.injEq, and_true]
  exact congrArg Char.ofNat (by omega)

theorem char_valid (c : Char) : c.toNat < 0xd800 ∨ (0xdfff < c.toNat ∧ c.toNat < 0x110000) := by
  have h := c.valid
  unfold UInt32.isValidChar Nat.isValidChar at h
  exact h

theorem parseString_escapeChar (a : Bool) (c : Char) (f : Nat) (X : Str) :
    parseString (f + 1) (escapeChar a c ++ X) = (parseString f X).map fun p => (c :: p.1, p.2) := by
  have esc : ∀ (Y : Str), parseEscape Y = some (c, X) →
      parseString (f + 1) ('\\' :: Y) = (parseString f X).map fun p => (c :: p.1, p.2) := by
    intro Y hY
    conv => lhs; unfold parseString
    rw [if_neg (by decide), if_pos rfl, hY]
    simp only [Option.bind_eq_bind, Option.bind_some]
    cases parseString f X <;> rfl
  unfold escapeChar
  split
  · next h => subst h; exact esc _ (by rfl)
  split
  · next h => subst h; exact esc _ (by rfl)
  split
  · next h => subst h; exact esc _ (by rfl)
  split
  · next h => subst h; exact esc _ (by rfl)
  split
  · next h => subst h; exact esc _ (by rfl)
  split
  · next h => subst h; exact esc _ (by rfl)
  split
  · next h => subst h; exact esc _ (by rfl)
  split
  · next h =>
    refine esc ('u' :: (hex4 c.toNat ++ X)) ?_
    rw [parseEscape_u _ (by omega) (by omega), Char.ofNat_toNat]
  split
  · next hlo ha =>
    split
    · next hb =>
      refine esc ('u' :: (hex4 c.toNat ++ X)) ?_
      rw [parseEscape_u _ (by omega) (by rcases char_valid c with h | h <;> omega), Char.ofNat_toNat]
    · next hb =>
      have hv := char_valid c
      have h := parseEscape_pair (c.toNat - 0x10000) (by omega) X
      rw [show 0x10000 + (c.toNat - 0x10000) = c.toNat by omega, Char.ofNat_toNat] at h
      have := esc _ h
      simpa only [List.append_assoc, List.cons_append, List.nil_append] using this
  · next hq hbs _ _ _ _ _ hlo _ =>
    show parseString (f + 1) (c :: X) = _
    conv => lhs; unfold parseString
    rw [if_neg hq, if_neg hbs, if_neg hlo]
    cases parseString f X <;> rfl

theorem parseString_escape (a : Bool) (s : Str) : ∀ (fuel : Nat) (r : Str), s.length < fuel →
    parseString fuel (s.flatMap (escapeChar a) ++ '"' :: r) = some (s, r) := by
  induction s with
  | nil =>
    intro fuel r h
    cases fuel with
    | zero => omega
    | succ f => rfl
  | cons c s ih =>
    intro fuel r h
    cases fuel with
    | zero => omega
    | succ f =>
      rw [List.flatMap_cons, List.append_assoc, parseString_escapeChar, ih f r (by simp at h; omega)]
      rfl

theorem escapeChar_length (a : Bool) (c : Char) : 1 ≤ (escapeChar a c).length := by
  unfold escapeChar
  split; · simp
  split; · simp
  split; · simp
  split; · simp
  split; · simp
  split; · simp
  split; · simp
  split; · simp
  split
  · split <;> simp
  · simp

theorem length_flatMap_escape (a : Bool) (s : Str) : s.length ≤ (s.flatMap (escapeChar a)).length := by
  induction s with
  | nil => simp
  | cons c s ih =>
    have := escapeChar_length a c
    simp only [List.flatMap_cons, List.length_append, List.length_cons]
    omega

/-- Reading a literal back, with the fuel the parser uses. -/
theorem parseString_lit (a : Bool) (s r : Str) :
    parseString ((s.flatMap (escapeChar a) ++ '"' :: r).length + 1)
      (s.flatMap (escapeChar a) ++ '"' :: r) = some (s, r) := by
  apply parseString_escape
  have := length_flatMap_escape a s
  simp only [List.length_append, List.length_cons]
  omega

/-! ### Numbers -/

/-- The text after a number does not continue it. -/
def Stops (rest : Str) : Prop :=
  ∀ c, rest.head? = some c → isDigitChar c = false ∧ c ≠ '.' ∧ c ≠ 'e' ∧ c ≠ 'E'

theorem isDigit_hexDigit : ∀ d : Fin 10, isDigitChar (hexDigit d.val) = true ∧
    (hexDigit d.val).toNat = 48 + d.val := by decide

theorem isDigit_hexDigit' (d : Nat) (h : d < 10) : isDigitChar (hexDigit d) = true :=
  (isDigit_hexDigit ⟨d, h⟩).1

theorem toNat_hexDigit (d : Nat) (h : d < 10) : (hexDigit d).toNat = 48 + d :=
  (isDigit_hexDigit ⟨d, h⟩).2

theorem natStr_digits : ∀ (fuel n : Nat), ∀ c ∈ natStr fuel n, isDigitChar c = true := by
  intro fuel
  induction fuel with
  | zero => intro n c hc; cases hc
  | succ f ih =>
    intro n c hc
    unfold natStr at hc
    split at hc
    · next h =>
      rw [List.mem_singleton] at hc
      subst hc
      exact isDigit_hexDigit' n h
    · rw [List.mem_append, List.mem_singleton] at hc
      rcases hc with hc | hc
      · exact ih _ c hc
      · subst hc; exact isDigit_hexDigit' _ (by omega)

theorem digitsVal_append (xs : Str) (c : Char) :
    digitsVal (xs ++ [c]) = digitsVal xs * 10 + (c.toNat - 48) := by
  unfold digitsVal
  rw [List.foldl_append]
  rfl

theorem digitsVal_natStr : ∀ (fuel n : Nat), n < fuel → digitsVal (natStr fuel n) = n := by
  intro fuel
  induction fuel with
  | zero => intro n h; omega
  | succ f ih =>
    intro n h
    unfold natStr
    split
    · next hn =>
      show 0 * 10 + ((hexDigit n).toNat - 48) = n
      rw [toNat_hexDigit n hn]; omega
    · next hn =>
      rw [digitsVal_append, ih _ (by omega), toNat_hexDigit _ (by omega)]
      omega

theorem natStr_ne_nil (fuel n : Nat) : natStr (fuel + 1) n ≠ [] := by
  unfold natStr
  split
  · simp
  · simp

/-- No leading zero, except for zero itself. -/
theorem natStr_head : ∀ (fuel n : Nat), n < fuel → 0 < n → (natStr fuel n).head? ≠ some '0' := by
  intro fuel
  induction fuel with
  | zero => intro n h; omega
  | succ f ih =>
    intro n h hpos
    unfold natStr
    split
    · next hn =>
      intro h0
      injection h0 with h0
      have := toNat_hexDigit n hn
      rw [h0] at this
      have : (48 : Nat) = 48 + n := this
      omega
    · next hn =>
      cases hx : natStr f (n / 10) with
      | nil =>
        cases f with
        | zero => omega
        | succ f => exact absurd hx (natStr_ne_nil f _)
      | cons x xs =>
        have := ih (n / 10) (by omega) (by omega)
        rw [hx] at this
        exact this

theorem takeWhile_digits (ds rest : Str) (hd : ∀ c ∈ ds, isDigitChar c = true) (hr : Stops rest) :
    (ds ++ rest).takeWhile isDigitChar = ds ∧ (ds ++ rest).dropWhile isDigitChar = rest := by
  induction ds with
  | nil =>
    cases rest with
    | nil => exact ⟨rfl, rfl⟩
    | cons c r =>
      have := (hr c rfl).1
      simp [List.takeWhile, List.dropWhile, this]
  | cons d ds ih =>
    have h1 := hd d (List.mem_cons_self ..)
    have h2 := ih (fun c hc => hd c (List.mem_cons_of_mem _ hc))
    simp only [List.cons_append, List.takeWhile_cons, List.dropWhile_cons, h1, if_true, h2.1, h2.2,
      and_self]

theorem parseNat_natStr (n : Nat) (rest : Str) (hr : Stops rest) :
    parseNat (natStr (n + 1) n ++ rest) = some (n, rest) := by
  by_cases h0 : n = 0
  · subst h0; rfl
  · have hh := natStr_head (n + 1) n (by omega) (by omega)
    have hd := takeWhile_digits _ rest (natStr_digits (n + 1) n) hr
    cases hx : natStr (n + 1) n with
    | nil => exact absurd hx (natStr_ne_nil n n)
    | cons x xs =>
      rw [hx] at hh hd
      have hx0 : x ≠ '0' := fun h => hh (by rw [h]; rfl)
      unfold parseNat
      rw [List.cons_append] at hd ⊢
      split
      · next r heq =>
        injection heq with h1 _
        exact absurd h1 hx0
      · rw [hd.1, hd.2, if_neg (by simp), ← hx, digitsVal_natStr _ _ (by omega)]

theorem floatFollows_stops (rest : Str) (hr : Stops rest) : floatFollows rest = false := by
  cases rest with
  | nil => rfl
  | cons c r =>
    obtain ⟨_, h1, h2, h3⟩ := hr c rfl
    simp [floatFollows, h1, h2, h3]

theorem isDigit_not_minus (c : Char) (h : isDigitChar c = true) : c ≠ '-' := by
  intro hc; subst hc; revert h; decide

theorem parseInt_intStr (i : Int) (rest : Str) (hr : Stops rest) :
    parseInt (intStr i ++ rest) = some (i, rest) := by
  unfold intStr
  split
  · next hneg =>
    unfold parseInt
    rw [List.cons_append, show splitSign ('-' :: (natStr (i.natAbs + 1) i.natAbs ++ rest)) =
      (true, natStr (i.natAbs + 1) i.natAbs ++ rest) from rfl]
    dsimp only
    rw [parseNat_natStr _ rest hr]
    simp only [floatFollows_stops rest hr, Bool.false_eq_true, if_false, if_true]
    congr 2
    omega
  · next hpos =>
    have hp := parseNat_natStr i.natAbs rest hr
    have hd := natStr_digits (i.natAbs + 1) i.natAbs
    cases hx : natStr (i.natAbs + 1) i.natAbs with
    | nil => exact absurd hx (natStr_ne_nil _ _)
    | cons x xs =>
      rw [hx] at hp hd
      have hm := isDigit_not_minus x (hd x (List.mem_cons_self ..))
      unfold parseInt
      have : splitSign ((x :: xs) ++ rest) = (false, (x :: xs) ++ rest) := by
        unfold splitSign
        rw [List.cons_append]
        dsimp only
        rw [if_neg hm]
      rw [this]
      dsimp only
      rw [hp]
      simp only [floatFollows_stops rest hr, Bool.false_eq_true, if_false]
      congr 2
      omega

/-! ### Whitespace -/

theorem skipWs_newline (ind : Layout) (level : Nat) (X : Str) :
    skipWs (newline ind level ++ X) = skipWs X := by
  unfold newline
  cases ind with
  | none => rfl
  | some k =>
    show skipWs ('\n' :: (List.replicate (k * level) ' ' ++ X)) = _
    have h : ∀ n, skipWs (List.replicate n ' ' ++ X) = skipWs X := by
      intro n
      induction n with
      | zero => rfl
      | succ n ih => rw [List.replicate_succ]; exact ih
    exact h _

theorem skipWs_cons (c : Char) (X : Str) (h : isWs c = false) : skipWs (c :: X) = c :: X := by
  unfold skipWs
  rw [List.dropWhile_cons, h]
  rfl

theorem skipWs_space (X : Str) : skipWs (' ' :: X) = skipWs X := rfl

theorem skipWs_itemSep (ind : Layout) (level : Nat) (X : Str) :
    ∃ Y, itemSep ind level ++ X = ',' :: Y ∧ skipWs Y = skipWs X := by
  unfold itemSep
  cases ind with
  | none => exact ⟨' ' :: X, rfl, rfl⟩
  | some k => exact ⟨newline (some k) level ++ X, rfl, skipWs_newline _ _ _⟩

/-! ### Values -/

/-- What can follow a value inside a document. -/
def Sep (rest : Str) : Prop := ∀ c, (rest.head? = some c) → c = ',' ∨ c = ']' ∨ c = '}' ∨ c = '\n'

theorem Sep.stops {rest : Str} (h : Sep rest) : Stops rest := by
  intro c hc
  rcases h c hc with h | h | h | h <;> subst h <;> decide

theorem sep_newline (ind : Layout) (level : Nat) (c : Char) (X : Str) (hc : c = ',' ∨ c = ']' ∨ c = '}') :
    Sep (newline ind level ++ c :: X) := by
  intro d hd
  unfold newline at hd
  cases ind with
  | none =>
    injection hd with hd
    subst hd
    rcases hc with h | h | h <;> simp [h]
  | some k =>
    injection hd with hd
    subst hd
    simp

theorem sep_itemSep (ind : Layout) (level : Nat) (X : Str) : Sep (itemSep ind level ++ X) := by
  obtain ⟨Y, hY, _⟩ := skipWs_itemSep ind level X
  rw [hY]
  intro c hc
  injection hc with hc
  exact Or.inl hc.symm

/-- The first character of a dumped value is no whitespace and closes nothing. -/
theorem dump_head (a : Bool) (ind : Layout) (level : Nat) (v : PyVal) :
    ∃ c X, dump a ind level v = c :: X ∧ isWs c = false ∧ c ≠ ']' ∧ c ≠ '}' := by
  have num : ∀ i : Int, ∃ c X, intStr i = c :: X ∧ isWs c = false ∧ c ≠ ']' ∧ c ≠ '}' := by
    intro i
    unfold intStr
    split
    · exact ⟨_, _, rfl, by decide, by decide, by decide⟩
    · have hd := natStr_digits (i.natAbs + 1) i.natAbs
      cases hx : natStr (i.natAbs + 1) i.natAbs with
      | nil => exact absurd hx (natStr_ne_nil _ _)
      | cons x xs =>
        rw [hx] at hd
        have h := hd x (List.mem_cons_self ..)
        refine ⟨x, xs, rfl, ?_, ?_, ?_⟩
        · cases hw : isWs x with
          | false => rfl
          | true =>
            exfalso
            unfold isWs at hw
            simp only [Bool.or_eq_true, beq_iff_eq] at hw
            rcases hw with ((hw | hw) | hw) | hw <;> subst hw <;> revert h <;> decide
        · intro hw; subst hw; revert h; decide
        · intro hw; subst hw; revert h; decide
  cases v with
  | none => exact ⟨'n', "ull".toList, by unfold dump; rfl, by decide, by decide, by decide⟩
  | bool b =>
    cases b
    · exact ⟨'f', "alse".toList, by unfold dump; rfl, by decide, by decide, by decide⟩
    · exact ⟨'t', "rue".toList, by unfold dump; rfl, by decide, by decide, by decide⟩
  | int i => unfold dump; exact num i
  | str s => exact ⟨'"', _, by unfold dump escape; rfl, by decide, by decide, by decide⟩
  | list l =>
    cases l
    · exact ⟨'[', [']'], by unfold dump; rfl, by decide, by decide, by decide⟩
    · exact ⟨'[', _, by unfold dump; rfl, by decide, by decide, by decide⟩
  | tuple l =>
    cases l
    · exact ⟨'[', [']'], by unfold dump; rfl, by decide, by decide, by decide⟩
    · exact ⟨'[', _, by unfold dump; rfl, by decide, by decide, by decide⟩
  | dict l =>
    cases l with
    | nil => exact ⟨'{', ['}'], by unfold dump; rfl, by decide, by decide, by decide⟩
    | cons p l =>
      obtain ⟨k, v⟩ := p
      exact ⟨'{', _, by unfold dump; rfl, by decide, by decide, by decide⟩

theorem skipWs_dump (a : Bool) (ind : Layout) (level : Nat) (v : PyVal) (X : Str) :
    skipWs (dump a ind level v ++ X) = dump a ind level v ++ X := by
  obtain ⟨c, Y, h, hw, _, _⟩ := dump_head a ind level v
  rw [h]
  exact skipWs_cons c _ hw

theorem escape_append (a : Bool) (s X : Str) :
    escape a s ++ X = '"' :: (s.flatMap (escapeChar a) ++ '"' :: X) := by
  unfold escape
  simp

mutual

theorem parse_dump (a : Bool) (ind : Layout) (v : PyVal) (hp : Plain v) (level fuel : Nat) (rest : Str)
    (hs : Stops rest) (hf : (dump a ind level v).length ≤ fuel) :
    parseValue fuel (dump a ind level v ++ rest) = some (v, rest) := by
  match v, hp with
  | .none, _ =>
    unfold dump at hf ⊢
    cases fuel with
    | zero => simp at hf
    | succ f => unfold parseValue; rfl
  | .bool true, _ =>
    unfold dump at hf ⊢
    cases fuel with
    | zero => simp at hf
    | succ f => unfold parseValue; rfl
  | .bool false, _ =>
    unfold dump at hf ⊢
    cases fuel with
    | zero => simp at hf
    | succ f => unfold parseValue; rfl
  | .int i, _ =>
    obtain ⟨c, X, hX, hw, h1, h2⟩ := dump_head a ind level (.int i)
    have hn : parseInt (dump a ind level (.int i) ++ rest) = some (i, rest) := by
      unfold dump; exact parseInt_intStr i rest hs
    have hd : c = '-' ∨ isDigitChar c = true := by
      unfold dump at hX
      unfold intStr at hX
      split at hX
      · injection hX with hX _; exact Or.inl hX.symm
      · right
        exact natStr_digits _ _ c (hX ▸ List.mem_cons_self ..)
    rw [hX] at hf hn ⊢
    cases fuel with
    | zero => simp at hf
    | succ f =>
      rw [List.cons_append] at hn ⊢
      unfold parseValue
      dsimp only
      have ne : ∀ e : Char, (e ≠ '-' ∧ isDigitChar e = false) → c ≠ e := by
        intro e he hce
        subst hce
        rcases hd with hd | hd
        · exact he.1 hd
        · rw [hd] at he; exact absurd he.2 (by decide)
      rw [if_neg (ne '"' (by decide)), if_neg (ne '[' (by decide)), if_neg (ne '{' (by decide)),
        if_neg (ne 'n' (by decide)), if_neg (ne 't' (by decide)), if_neg (ne 'f' (by decide)), hn]
      rfl
  | .str s, _ =>
    unfold dump at hf ⊢
    cases fuel with
    | zero => simp [escape] at hf
    | succ f =>
      rw [escape_append]
      unfold parseValue
      dsimp only
      rw [if_pos rfl, parseString_lit]
      rfl
  | .list [], _ =>
    unfold dump at hf ⊢
    cases fuel with
    | zero => simp at hf
    | succ f =>
      unfold parseValue
      dsimp only [List.cons_append, List.nil_append]
      rw [if_neg (by decide), if_pos rfl, skipWs_cons ']' rest (by decide)]
      rfl
  | .list (v :: vs), hp =>
    have hv : ∀ w ∈ v :: vs, Plain w := by cases hp; assumption
    unfold dump at hf ⊢
    cases fuel with
    | zero => simp at hf
    | succ f =>
      unfold parseValue
      rw [List.cons_append]
      dsimp only
      rw [if_neg (by decide), if_pos rfl]
      simp only [List.append_assoc, List.cons_append, List.nil_append]
      rw [skipWs_newline, skipWs_dump]
      have hI := parse_items a ind v vs (hv v (List.mem_cons_self ..))
        (fun w hw => hv w (List.mem_cons_of_mem _ hw)) (level + 1) f rest level
        (by simp only [List.length_cons, List.length_append, List.length_nil] at hf ⊢; omega)
      obtain ⟨c, X, hX, _, hc, _⟩ := dump_head a ind (level + 1) v
      rw [if_neg (by
        rw [hX]
        simp only [List.cons_append, startsWith]
        rw [if_neg (fun e => hc e.symm)]
        decide), hI]
      rfl
  | .dict [], _ =>
    unfold dump at hf ⊢
    cases fuel with
    | zero => simp at hf
    | succ f =>
      unfold parseValue
      dsimp only [List.cons_append, List.nil_append]
      rw [if_neg (by decide), if_neg (by decide), if_pos rfl, skipWs_cons '}' rest (by decide)]
      rfl
  | .dict ((k, v) :: d), hp =>
    have hv : ((((k, v) :: d : List (Str × PyVal))).map Prod.fst).Nodup ∧
        ∀ w ∈ (k, v) :: d, Plain w.2 := by cases hp; exact ⟨by assumption, by assumption⟩
    unfold dump at hf ⊢
    cases fuel with
    | zero => simp at hf
    | succ f =>
      unfold parseValue
      rw [List.cons_append]
      dsimp only
      rw [if_neg (by decide), if_neg (by decide), if_pos rfl]
      simp only [List.append_assoc, List.cons_append, List.nil_append]
      rw [skipWs_newline]
      have hI := parse_pairs a ind k v d (hv.2 (k, v) (List.mem_cons_self ..))
        (fun w hw => hv.2 w (List.mem_cons_of_mem _ hw)) (level + 1) f rest level
        (by simp only [List.length_cons, List.length_append, List.length_nil] at hf ⊢; omega)
      have hq : ∀ Y, skipWs (escape a k ++ Y) = escape a k ++ Y ∧
          startsWith ['}'] (escape a k ++ Y) = false := by
        intro Y
        rw [escape_append]
        exact ⟨skipWs_cons '"' _ (by decide), rfl⟩
      rw [(hq _).1, if_neg (by rw [(hq _).2]; decide), hI]
      simp only [Option.map_some]
      have := foldl_dictSet_nodup ((k, v) :: d) [] (by simpa using hv.1)
      rw [this]
      rfl
termination_by fuel

theorem parse_items (a : Bool) (ind : Layout) (v : PyVal) (vs : List PyVal) (hv : Plain v)
    (hp : ∀ w ∈ vs, Plain w) (level fuel : Nat) (rest : Str) (l2 : Nat)
    (hf : (dump a ind level v ++ dumpItems a ind level vs).length + 1 ≤ fuel) :
    parseItems fuel (dump a ind level v ++ (dumpItems a ind level vs ++ (newline ind l2 ++ ']' :: rest)))
      = some (v :: vs, rest) := by
  cases fuel with
  | zero => omega
  | succ f =>
    unfold parseItems
    rw [List.length_append] at hf
    match vs with
    | [] =>
      unfold dumpItems
      rw [List.nil_append, parse_dump a ind v hv level f _ (sep_newline _ _ _ _ (by simp)).stops (by omega)]
      dsimp only
      rw [skipWs_newline, skipWs_cons ']' _ (by decide)]
      rfl
    | w :: ws =>
      unfold dumpItems at hf ⊢
      simp only [List.append_assoc]
      rw [parse_dump a ind v hv level f _ (sep_itemSep _ _ _).stops (by omega)]
      dsimp only
      obtain ⟨Y, hY, hYs⟩ := skipWs_itemSep ind level
        (dump a ind level w ++ (dumpItems a ind level ws ++ (newline ind l2 ++ ']' :: rest)))
      rw [hY, skipWs_cons ',' Y (by decide)]
      dsimp only
      rw [if_neg (by decide), if_pos rfl, hYs, skipWs_dump]
      have hvl : 1 ≤ (dump a ind level v).length := by
        obtain ⟨c, X, hX, _⟩ := dump_head a ind level v
        rw [hX]; simp
      have hsl : 1 ≤ (itemSep ind level).length := by unfold itemSep; cases ind <;> simp
      rw [parse_items a ind w ws (hp w (List.mem_cons_self ..))
        (fun x hx => hp x (List.mem_cons_of_mem _ hx)) level f rest l2
        (by simp only [List.length_append] at hf ⊢; omega)]
      rfl
termination_by fuel

theorem parse_pairs (a : Bool) (ind : Layout) (k : Str) (v : PyVal) (d : List (Str × PyVal)) (hv : Plain v)
    (hp : ∀ kv ∈ d, Plain kv.2) (level fuel : Nat) (rest : Str) (l2 : Nat)
    (hf : (dump a ind level v ++ dumpPairs a ind level d).length + 1 ≤ fuel) :
    parsePairs fuel (escape a k ++ (':' :: ' ' :: (dump a ind level v ++ (dumpPairs a ind level d ++
      (newline ind l2 ++ '}' :: rest))))) = some ((k, v) :: d, rest) := by
  cases fuel with
  | zero => omega
  | succ f =>
    rw [escape_append]
    unfold parsePairs
    dsimp only
    rw [if_pos rfl, parseString_lit]
    dsimp only
    rw [skipWs_cons ':' _ (by decide)]
    dsimp only
    rw [if_pos rfl, skipWs_space, skipWs_dump]
    rw [List.length_append] at hf
    match d with
    | [] =>
      unfold dumpPairs
      rw [List.nil_append, parse_dump a ind v hv level f _ (sep_newline _ _ _ _ (by simp)).stops (by omega)]
      dsimp only
      rw [skipWs_newline, skipWs_cons '}' _ (by decide)]
      rfl
    | (k', w) :: ws =>
      unfold dumpPairs at hf ⊢
      simp only [List.append_assoc, List.cons_append, List.nil_append]
      rw [parse_dump a ind v hv level f _ (sep_itemSep _ _ _).stops (by omega)]
      dsimp only
      obtain ⟨Y, hY, hYs⟩ := skipWs_itemSep ind level
        (escape a k' ++ (':' :: ' ' :: (dump a ind level w ++
          (dumpPairs a ind level ws ++ (newline ind l2 ++ '}' :: rest)))))
      have hq : ∀ Y, skipWs (escape a k' ++ Y) = escape a k' ++ Y := by
        intro Y
        rw [escape_append]
        exact skipWs_cons '"' _ (by decide)
      rw [hY, skipWs_cons ',' Y (by decide)]
      dsimp only
      rw [if_neg (by decide), if_pos rfl, hYs, hq]
      have hvl : 1 ≤ (dump a ind level v).length := by
        obtain ⟨c, X, hX, _⟩ := dump_head a ind level v
        rw [hX]; simp
      rw [parse_pairs a ind k' w ws (hp (k', w) (List.mem_cons_self ..))
        (fun x hx => hp x (List.mem_cons_of_mem _ hx)) level f rest l2
        (by simp only [List.length_append, List.length_cons, List.length_nil] at hf ⊢; omega)]
      rfl
termination_by fuel

end

/-- `json.loads(json.dumps(v, ...)) == v` for every plain value, in every layout. -/
theorem loads_dumps (a : Bool) (ind : Layout) (v : PyVal) (hp : Plain v) : loads (dumps a ind v) = .ok v := by
  unfold loads dumps
  have hws := skipWs_dump a ind 0 v []
  rw [List.append_nil] at hws
  have h := parse_dump a ind v hp 0 ((dump a ind 0 v).length + 1) [] (fun c hc => by cases hc) (by omega)
  rw [List.append_nil] at h
  rw [hws, h]
  rfl

end Json
end Uttut
