import Verif.Spec.Written
import Verif.Lemmas.Json
import Verif.Model.Pipe
import Verif.Model.Ordinal
import Verif.Props.Construct

/-!
C112: the characters of serialized texts.
-/

namespace Uttut

open Spec Json

theorem hexDigit_printable : ∀ d : Fin 16, Printable (hexDigit d.val) := by
  unfold Printable
  decide

theorem hexDigit_printable' (n : Nat) : Printable (hexDigit (n % 16)) := hexDigit_printable ⟨n % 16, Nat.mod_lt _ (by decide)⟩

theorem hex4_printable (n : Nat) : ∀ c ∈ hex4 n, Printable c := by
  intro c hc
  simp only [hex4, List.mem_cons, List.not_mem_nil, or_false] at hc
  rcases hc with rfl | rfl | rfl | rfl <;> exact hexDigit_printable' _

theorem printable_lit {l : Str} (h : l.all (fun c => decide (32 ≤ c.toNat ∧ c.toNat < 127)) = true) :
    ∀ c ∈ l, Printable c := fun c hc => by
  have := List.all_eq_true.mp h c hc
  unfold Printable
  exact of_decide_eq_true this

/-- What may stand for a text that contains the characters `P`. -/
def Shown (ascii : Bool) (P : Char → Prop) (c : Char) : Prop := Printable c ∨ ascii = false ∧ 127 ≤ c.toNat ∧ P c

theorem escapeChar_shown (ascii : Bool) (x c : Char) (h : c ∈ escapeChar ascii x) : Shown ascii (· = x) c := by
  unfold escapeChar at h
  have lit : ∀ l : Str, l.all (fun c => decide (32 ≤ c.toNat ∧ c.toNat < 127)) = true → c ∈ l →
      Shown ascii (· = x) c := fun l hl hc => .inl (printable_lit hl c hc)
  split at h
  · exact lit _ (by decide) h
  split at h
  · exact lit _ (by decide) h
  split at h
  · exact lit _ (by decide) h
  split at h
  · exact lit _ (by decide) h
  split at h
  · exact lit _ (by decide) h
  split at h
  · exact lit _ (by decide) h
  split at h
  · exact lit _ (by decide) h
  split at h
  · rcases List.mem_append.mp h with h | h
    · exact lit _ (by decide) h
    · exact .inl (hex4_printable _ c h)
  rename_i hlow
  split at h
  · split at h
    · rcases List.mem_append.mp h with h | h
      · exact lit _ (by decide) h
      · exact .inl (hex4_printable _ c h)
    · simp only [List.mem_append] at h
      rcases h with ((h | h) | h) | h
      · exact lit _ (by decide) h
      · exact .inl (hex4_printable _ c h)
      · exact lit _ (by decide) h
      · exact .inl (hex4_printable _ c h)
  · rename_i hasc
    obtain rfl : c = x := by simpa using h
    by_cases h7 : 127 ≤ c.toNat
    · cases ascii with
      | false => exact .inr ⟨rfl, h7, rfl⟩
      | true => exact absurd ⟨rfl, h7⟩ hasc
    · exact .inl ⟨by omega, by omega⟩

theorem escapeChar_high (c : Char) (h : 127 ≤ c.toNat) : escapeChar false c = [c] := by
  have hne : ∀ d : Char, d.toNat < 127 → c ≠ d := by
    rintro d hd rfl
    omega
  unfold escapeChar
  rw [if_neg (hne _ (by decide)), if_neg (hne _ (by decide)), if_neg (hne _ (by decide)), if_neg (hne _ (by decide)),
    if_neg (hne _ (by decide)), if_neg (hne _ (by decide)), if_neg (hne _ (by decide)), if_neg (by omega),
    if_neg (by simp)]

theorem escape_shown (ascii : Bool) (s : Str) (c : Char) (h : c ∈ escape ascii s) : Shown ascii (· ∈ s) c := by
  unfold escape at h
  rcases List.mem_cons.mp h with rfl | h
  · exact .inl ⟨by decide, by decide⟩
  rcases List.mem_append.mp h with h | h
  · obtain ⟨x, hx, hc⟩ := List.mem_flatMap.mp h
    rcases escapeChar_shown ascii x c hc with h | ⟨h1, h2, rfl⟩
    · exact .inl h
    · exact .inr ⟨h1, h2, hx⟩
  · obtain rfl : c = '"' := by simpa using h
    exact .inl ⟨by decide, by decide⟩

theorem escape_high (s : Str) (c : Char) (h : 127 ≤ c.toNat) (hc : c ∈ s) : c ∈ escape false s := by
  unfold escape
  refine List.mem_cons_of_mem _ (List.mem_append_left _ (List.mem_flatMap.mpr ⟨c, hc, ?_⟩))
  rw [escapeChar_high c h]
  simp

theorem natStr_printable (fuel n : Nat) : ∀ c ∈ natStr fuel n, Printable c := by
  have hd : ∀ n, n < 10 → Printable (hexDigit n) := fun n h => by
    have := hexDigit_printable' n
    rwa [Nat.mod_eq_of_lt (by omega)] at this
  induction fuel generalizing n with
  | zero => intro c hc; cases hc
  | succ fuel ih =>
    intro c hc
    unfold natStr at hc
    split at hc
    · rename_i hn
      obtain rfl : c = hexDigit n := by simpa using hc
      exact hd n hn
    · rcases List.mem_append.mp hc with hc | hc
      · exact ih _ c hc
      · obtain rfl : c = hexDigit (n % 10) := by simpa using hc
        exact hd _ (Nat.mod_lt _ (by decide))

theorem intStr_printable (i : Int) : ∀ c ∈ intStr i, Printable c := by
  intro c hc
  unfold intStr at hc
  split at hc
  · rcases List.mem_cons.mp hc with rfl | hc
    · exact ⟨by decide, by decide⟩
    · exact natStr_printable _ _ c hc
  · exact natStr_printable _ _ c hc

/-- What may stand in the text of a value. -/
def Dumped (ascii : Bool) (ind : Layout) (P : Char → Prop) (c : Char) : Prop :=
  Shown ascii P c ∨ c = '\n' ∧ ind ≠ none

theorem newline_dumped {ascii : Bool} {ind : Layout} {P : Char → Prop} {level : Nat} {c : Char} (h : c ∈ newline ind level) :
    Dumped ascii ind P c := by
  cases ind with
  | none => cases h
  | some k =>
    rcases List.mem_cons.mp h with rfl | h
    · exact .inr ⟨rfl, fun h => nomatch h⟩
    · obtain rfl := List.eq_of_mem_replicate h
      exact .inl (.inl ⟨by decide, by decide⟩)

theorem itemSep_dumped {ascii : Bool} {ind : Layout} {P : Char → Prop} {level : Nat} {c : Char} (h : c ∈ itemSep ind level) :
    Dumped ascii ind P c := by
  cases ind with
  | none => exact .inl (.inl (printable_lit (l := [',', ' ']) (by decide) c h))
  | some k =>
    rcases List.mem_cons.mp h with rfl | h
    · exact .inl (.inl ⟨by decide, by decide⟩)
    · exact newline_dumped h

theorem dumped_mono {ascii : Bool} {ind : Layout} {P Q : Char → Prop} {c : Char} (h : Dumped ascii ind P c)
    (hpq : P c → Q c) : Dumped ascii ind Q c := by
  rcases h with (h | ⟨h1, h2, h3⟩) | h
  · exact .inl (.inl h)
  · exact .inl (.inr ⟨h1, h2, hpq h3⟩)
  · exact .inr h

theorem dumped_one {ascii : Bool} {ind : Layout} {P : Char → Prop} {c x : Char} (hx : Printable x) (h : c ∈ [x]) :
    Dumped ascii ind P c := by
  obtain rfl : c = x := by simpa using h
  exact .inl (.inl hx)

mutual

theorem dump_dumped (ascii : Bool) (ind : Layout) (level : Nat) (v : PyVal) (c : Char)
    (h : c ∈ dump ascii ind level v) : Dumped ascii ind (fun c => OccursIn c v) c := by
  match v with
  | .none => exact .inl (.inl (printable_lit (l := "null".toList) (by decide) c (by simpa [dump] using h)))
  | .bool true => exact .inl (.inl (printable_lit (l := "true".toList) (by decide) c (by simpa [dump] using h)))
  | .bool false => exact .inl (.inl (printable_lit (l := "false".toList) (by decide) c (by simpa [dump] using h)))
  | .int i => exact .inl (.inl (intStr_printable i c (by simpa [dump] using h)))
  | .str s => exact dumped_mono (.inl (escape_shown ascii s c (by simpa [dump] using h))) (.str s)
  | .list [] => exact .inl (.inl (printable_lit (l := ['[', ']']) (by decide) c (by simpa only [dump] using h)))
  | .list (v :: vs) =>
    simp only [dump, List.mem_cons, List.mem_append] at h
    rcases h with rfl | (((h | h) | h) | h) | h
    · exact .inl (.inl ⟨by decide, by decide⟩)
    · exact newline_dumped h
    · exact dumped_mono (dump_dumped ascii ind (level + 1) v c h) (.list _ v (by simp))
    · exact dumped_mono (dumpItems_dumped ascii ind (level + 1) vs c h) fun ⟨w, hw, ho⟩ => .list _ w (by simp [hw]) ho
    · exact newline_dumped h
    · exact dumped_one (x := ']') ⟨by decide, by decide⟩ (by simpa using h)
  | .tuple [] => exact .inl (.inl (printable_lit (l := ['[', ']']) (by decide) c (by simpa only [dump] using h)))
  | .tuple (v :: vs) =>
    simp only [dump, List.mem_cons, List.mem_append] at h
    rcases h with rfl | (((h | h) | h) | h) | h
    · exact .inl (.inl ⟨by decide, by decide⟩)
    · exact newline_dumped h
    · exact dumped_mono (dump_dumped ascii ind (level + 1) v c h) (.tuple _ v (by simp))
    · exact dumped_mono (dumpItems_dumped ascii ind (level + 1) vs c h) fun ⟨w, hw, ho⟩ => .tuple _ w (by simp [hw]) ho
    · exact newline_dumped h
    · exact dumped_one (x := ']') ⟨by decide, by decide⟩ (by simpa using h)
  | .dict [] => exact .inl (.inl (printable_lit (l := ['{', '}']) (by decide) c (by simpa only [dump] using h)))
  | .dict ((k, v) :: d) =>
    simp only [dump, List.mem_cons, List.mem_append] at h
    rcases h with rfl | (((((h | h) | h) | h) | h) | h) | h
    · exact .inl (.inl ⟨by decide, by decide⟩)
    · exact newline_dumped h
    · exact dumped_mono (.inl (escape_shown ascii k c h)) (.key _ k v (by simp))
    · exact .inl (.inl (printable_lit (l := [':', ' ']) (by decide) c (by simpa using h)))
    · exact dumped_mono (dump_dumped ascii ind (level + 1) v c h) (.value _ k v (by simp))
    · refine dumped_mono (dumpPairs_dumped ascii ind (level + 1) d c h) ?_
      rintro ⟨k', w, hm, ho | ho⟩
      · exact .key _ k' w (List.mem_cons_of_mem _ hm) ho
      · exact .value _ k' w (List.mem_cons_of_mem _ hm) ho
    · exact newline_dumped h
    · exact dumped_one (x := '}') ⟨by decide, by decide⟩ (by simpa using h)

theorem dumpItems_dumped (ascii : Bool) (ind : Layout) (level : Nat) (l : List PyVal) (c : Char)
    (h : c ∈ dumpItems ascii ind level l) : Dumped ascii ind (fun c => ∃ v ∈ l, OccursIn c v) c := by
  match l with
  | [] => simp [dumpItems] at h
  | v :: vs =>
    simp only [dumpItems, List.mem_append] at h
    rcases h with (h | h) | h
    · exact itemSep_dumped h
    · exact dumped_mono (dump_dumped ascii ind level v c h) fun ho => ⟨v, by simp, ho⟩
    · exact dumped_mono (dumpItems_dumped ascii ind level vs c h) fun ⟨w, hw, ho⟩ => ⟨w, by simp [hw], ho⟩

theorem dumpPairs_dumped (ascii : Bool) (ind : Layout) (level : Nat) (d : List (Str × PyVal)) (c : Char)
    (h : c ∈ dumpPairs ascii ind level d) :
    Dumped ascii ind (fun c => ∃ k v, (k, v) ∈ d ∧ (c ∈ k ∨ OccursIn c v)) c := by
  match d with
  | [] => simp [dumpPairs] at h
  | (k, v) :: d =>
    simp only [dumpPairs, List.mem_append] at h
    rcases h with (((h | h) | h) | h) | h
    · exact itemSep_dumped h
    · exact dumped_mono (.inl (escape_shown ascii k c h)) fun ho => ⟨k, v, by simp, .inl ho⟩
    · exact .inl (.inl (printable_lit (l := [':', ' ']) (by decide) c h))
    · exact dumped_mono (dump_dumped ascii ind level v c h) fun ho => ⟨k, v, by simp, .inr ho⟩
    · refine dumped_mono (dumpPairs_dumped ascii ind level d c h) ?_
      rintro ⟨k', w, hm, ho⟩
      exact ⟨k', w, List.mem_cons_of_mem _ hm, ho⟩

end

theorem dumpItems_mem {ascii : Bool} {ind : Layout} {level : Nat} {l : List PyVal} {v : PyVal} (hv : v ∈ l) {c : Char}
    (h : c ∈ dump ascii ind level v) : c ∈ dumpItems ascii ind level l := by
  induction l with
  | nil => cases hv
  | cons w l ih =>
    simp only [dumpItems, List.mem_append]
    rcases List.mem_cons.mp hv with rfl | hv
    · exact .inl (.inr h)
    · exact .inr (ih hv)

theorem dumpPairs_mem {ascii : Bool} {ind : Layout} {level : Nat} {d : List (Str × PyVal)} {k : Str} {v : PyVal}
    (hv : (k, v) ∈ d) {c : Char} (h : c ∈ escape ascii k ∨ c ∈ dump ascii ind level v) :
    c ∈ dumpPairs ascii ind level d := by
  induction d with
  | nil => cases hv
  | cons w d ih =>
    obtain ⟨k', w⟩ := w
    simp only [dumpPairs, List.mem_append]
    rcases List.mem_cons.mp hv with e | hv
    · cases e
      rcases h with h | h
      · exact .inl (.inl (.inl (.inr h)))
      · exact .inl (.inr h)
    · exact .inr (ih hv)

theorem occurs_dump {c : Char} {v : PyVal} (h : OccursIn c v) (h7 : 127 ≤ c.toNat) (ind : Layout) :
    ∀ level, c ∈ dump false ind level v := by
  induction h with
  | str s hs =>
    intro level
    simp only [dump]
    exact escape_high s c h7 hs
  | list l v hv _ ih =>
    intro level
    cases l with
    | nil => cases hv
    | cons w l =>
      simp only [dump, List.mem_cons, List.mem_append]
      rcases List.mem_cons.mp hv with rfl | hv
      · exact .inr (.inl (.inl (.inl (.inr (ih _)))))
      · exact .inr (.inl (.inl (.inr (dumpItems_mem hv (ih _)))))
  | tuple l v hv _ ih =>
    intro level
    cases l with
    | nil => cases hv
    | cons w l =>
      simp only [dump, List.mem_cons, List.mem_append]
      rcases List.mem_cons.mp hv with rfl | hv
      · exact .inr (.inl (.inl (.inl (.inr (ih _)))))
      · exact .inr (.inl (.inl (.inr (dumpItems_mem hv (ih _)))))
  | key d k v hv hk =>
    intro level
    have hk := escape_high k c h7 hk
    cases d with
    | nil => cases hv
    | cons w d =>
      obtain ⟨k', w⟩ := w
      simp only [dump, List.mem_cons, List.mem_append]
      rcases List.mem_cons.mp hv with e | hv
      · cases e
        exact .inr (.inl (.inl (.inl (.inl (.inl (.inr hk))))))
      · exact .inr (.inl (.inl (.inr (dumpPairs_mem hv (.inl hk)))))
  | value d k v hv _ ih =>
    intro level
    cases d with
    | nil => cases hv
    | cons w d =>
      obtain ⟨k', w⟩ := w
      simp only [dump, List.mem_cons, List.mem_append]
      rcases List.mem_cons.mp hv with e | hv
      · cases e
        exact .inr (.inl (.inl (.inl (.inr (ih _)))))
      · exact .inr (.inl (.inl (.inr (dumpPairs_mem hv (.inr (ih _))))))

/-- C112: the text of an `OrdinalLabel` is one line of printable ASCII, whatever characters its names contain. -/
theorem C112_labels (t : OrdinalLabel) : ∀ c ∈ t.serialize, Printable c := by
  intro c hc
  rcases dump_dumped true none 0 t.toDict c hc with (h | ⟨h, _⟩) | ⟨_, h⟩
  · exact h
  · cases h
  · exact absurd rfl h

theorem written_of {v : PyVal} {c : Char} (h : c ∈ Json.dumps false (some 2) v) :
    Printable c ∨ c = '\n' ∨ 127 ≤ c.toNat ∧ OccursIn c v := by
  rcases dump_dumped false (some 2) 0 v c h with (h | ⟨_, h⟩) | ⟨h, _⟩
  · exact .inl h
  · exact .inr (.inr h)
  · exact .inr (.inl h)

theorem written_iff {v : PyVal} {c : Char} (h7 : 127 ≤ c.toNat) : c ∈ Json.dumps false (some 2) v ↔ OccursIn c v := by
  refine ⟨fun h => ?_, fun h => occurs_dump h h7 (some 2) 0⟩
  rcases written_of h with h | rfl | h
  · exact absurd h.2 (by omega)
  · exact absurd h7 (by decide)
  · exact h.2

/-- C112: the text of an operator has no control characters but line feeds. Its other characters beyond ASCII are those of
the name of the class and of the arguments, as they are. -/
theorem C112_operator (op : Op) (c : Char) :
    (c ∈ op.serialize → c.toNat < 127 → Printable c ∨ c = '\n') ∧
    (127 ≤ c.toNat → (c ∈ op.serialize ↔ c ∈ op.cls.name ∨ OccursIn c (.dict op.configs))) := by
  refine ⟨fun h h7 => ?_, fun h7 => ?_⟩
  · rcases written_of h with h | h | h
    · exact .inl h
    · exact .inr h
    · exact absurd h.1 (by omega)
  · unfold Op.serialize
    rw [written_iff h7]
    have hlit : ∀ l : Str, l.all (fun c => decide (c.toNat < 127)) = true → c ∉ l := fun l hl hc => by
      have := of_decide_eq_true (List.all_eq_true.mp hl c hc)
      omega
    constructor
    · intro h
      unfold Op.toDict at h
      cases h with
      | key _ k v hm hc =>
        simp only [List.mem_cons, List.not_mem_nil, or_false, Prod.mk.injEq] at hm
        rcases hm with ⟨rfl, _⟩ | ⟨rfl, _⟩ <;> exact absurd hc (hlit _ (by decide))
      | value _ k v hm ho =>
        simp only [List.mem_cons, List.not_mem_nil, or_false, Prod.mk.injEq] at hm
        rcases hm with ⟨_, rfl⟩ | ⟨_, rfl⟩
        · cases ho with
          | str _ h => exact .inl h
        · exact .inr ho
    · rintro (h | h)
      · exact .value _ "op_name".toList _ (by simp) (.str _ h)
      · exact .value _ "op_kwargs".toList _ (by simp) h

/-- C112: the text of a pipe has no control characters but line feeds. Its other characters beyond ASCII are those of the
texts of its steps and of the names of its checkpoints. -/
theorem C112_pipe (p : Pipe) (c : Char) :
    (c ∈ p.serialize → c.toNat < 127 → Printable c ∨ c = '\n') ∧
    (127 ≤ c.toNat → (c ∈ p.serialize ↔ (∃ op ∈ p.steps, c ∈ op.cls.name ∨ OccursIn c (.dict op.configs)) ∨
      ∃ kv ∈ p.checkpoints, c ∈ kv.1)) := by
  refine ⟨fun h h7 => ?_, fun h7 => ?_⟩
  · rcases written_of h with h | h | h
    · exact .inl h
    · exact .inr h
    · exact absurd h.1 (by omega)
  · unfold Pipe.serialize
    rw [written_iff h7]
    have hlit : ∀ l : Str, l.all (fun c => decide (c.toNat < 127)) = true → c ∉ l := fun l hl hc => by
      have := of_decide_eq_true (List.all_eq_true.mp hl c hc)
      omega
    constructor
    · intro h
      unfold Pipe.toDict at h
      cases h with
      | key _ k v hm hc =>
        simp only [List.mem_cons, List.not_mem_nil, or_false, Prod.mk.injEq] at hm
        rcases hm with ⟨rfl, _⟩ | ⟨rfl, _⟩ <;> exact absurd hc (hlit _ (by decide))
      | value _ k v hm ho =>
        simp only [List.mem_cons, List.not_mem_nil, or_false, Prod.mk.injEq] at hm
        rcases hm with ⟨_, rfl⟩ | ⟨_, rfl⟩
        · cases ho with
          | list _ v hv h =>
            obtain ⟨op, hop, rfl⟩ := List.mem_map.mp hv
            cases h with
            | str _ h => exact .inl ⟨op, hop, ((C112_operator op c).2 h7).mp h⟩
        · cases ho with
          | key _ k v hm hc =>
            obtain ⟨kv, hkv, e⟩ := List.mem_map.mp hm
            cases e
            exact .inr ⟨kv, hkv, hc⟩
          | value _ k v hm h =>
            obtain ⟨kv, hkv, e⟩ := List.mem_map.mp hm
            cases e
            cases h
    · rintro (⟨op, hop, h⟩ | ⟨kv, hkv, h⟩)
      · refine .value _ "steps".toList (.list (p.steps.map fun op => .str op.serialize)) List.mem_cons_self
          (.list _ (.str op.serialize) (List.mem_map.mpr ⟨op, hop, rfl⟩) (.str _ ?_))
        exact ((C112_operator op c).2 h7).mpr h
      · exact .value _ "checkpoints".toList (.dict (p.checkpoints.map fun kv => (kv.1, .int kv.2)))
          (List.mem_cons_of_mem _ List.mem_cons_self) (.key _ kv.1 (.int kv.2) (List.mem_map.mpr ⟨kv, hkv, rfl⟩) h)

/-! ### examples -/

example : (escape true "é\n".toList) = "\"\\u00e9\\n\"".toList ∧ escape false "é\n".toList = "\"é\\n\"".toList := by
  decide

/-- A pipe with a step whose text is not ASCII. -/
example : ∃ op, create exEnv "ReplaceAwithB" [.str "é".toList, .str "e".toList] [] = .ok op ∧
    'é' ∈ (⟨[op], []⟩ : Pipe).serialize := by
  refine ⟨_, rfl, ((C112_pipe _ 'é').2 (by decide)).mpr (.inl ⟨_, List.mem_cons_self, .inr ?_⟩)⟩
  exact .value _ "a".toList _ (List.mem_cons_self) (.str _ (by decide))

end Uttut
