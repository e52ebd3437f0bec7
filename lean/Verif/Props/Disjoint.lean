import Verif.Props.Framing
import Verif.Props.PartsExact
import Verif.Props.Twice
import Verif.Props.Reference
import Verif.Spec.Disjoint

/-!
C113: steps that deal with different characters can be exchanged.
-/

namespace Uttut

open Spec

/-! ### what a step does to a text -/

/-- `op` turns `x` into `o`, labels by `F` and back by `B`. -/
def Act (op : Op) (x o : Str) (F B : List Int → List Int) : Prop :=
  ∃ a, op.transform (.str x) = .ok (.str o, a) ∧ Answers a x.length o.length F B

/-- The first `n` labels by `F`, the others by `G`. -/
def labelsOfBoth (n : Nat) (F G : List Int → List Int) (ls : List Int) : List Int := F (ls.take n) ++ G (ls.drop n)

theorem labelsOfBoth_append {n : Nat} {F G : List Int → List Int} {x y : List Int} (h : x.length = n) :
    labelsOfBoth n F G (x ++ y) = F x ++ G y := by
  unfold labelsOfBoth
  rw [List.take_left' h, List.drop_left' h]

theorem length_split {n m : Nat} {ls : List Int} (h : ls.length = n + m) :
    ∃ x y, ls = x ++ y ∧ x.length = n ∧ y.length = m :=
  ⟨ls.take n, ls.drop n, (List.take_append_drop n ls).symm, by rw [List.length_take]; omega, by rw [List.length_drop]; omega⟩

theorem act_outcome {op : Op} {x o : Str} {a : Aligner} (h : op.transform (.str x) = .ok (.str o, a)) :
    opOutcome op (.str x) = .ok (.str o, a.transform, a.inverseTransform) := by
  unfold opOutcome
  rw [h]
  rfl

theorem act_join {op : Op} {x y o₁ o₂ : Str} {F₁ B₁ F₂ B₂ : List Int → List Int} (h₁ : Act op x o₁ F₁ B₁)
    (h₂ : Act op y o₂ F₂ B₂) (h : InParts (opOutcome op) (.str x) (.str y)) :
    Act op (x ++ y) (o₁ ++ o₂) (labelsOfBoth x.length F₁ F₂) (labelsOfBoth o₁.length B₁ B₂) := by
  obtain ⟨a, ha, hA⟩ := h₁
  obtain ⟨b, hb, hB⟩ := h₂
  obtain ⟨o, f', b', hz, hj, hf, hg⟩ := h.gives _ _ _ _ _ _ _ (.str x y) (act_outcome ha) (act_outcome hb)
  cases hj
  unfold opOutcome at hz
  cases hc : op.transform (.str (x ++ y)) with
  | error e => rw [hc] at hz; cases hz
  | ok r =>
    rw [hc] at hz
    obtain ⟨o, c⟩ := r
    injection hz with hz
    injection hz with h1 hz
    injection hz with h2 h3
    dsimp only at h1 h2 h3
    subst h1; subst h2; subst h3
    have fwd : ∀ ls, ls.length = (x ++ y).length → c.transform ls = .ok (labelsOfBoth x.length F₁ F₂ ls) ∧
        (labelsOfBoth x.length F₁ F₂ ls).length = (o₁ ++ o₂).length := by
      intro ls hl
      obtain ⟨l, m, rfl, hl, hm⟩ := length_split (n := x.length) (m := y.length) (by rw [hl, List.length_append])
      have e := hf l m hl hm
      rw [(hA.forward l hl).1, (hB.forward m hm).1] at e
      rw [labelsOfBoth_append hl, e]
      refine ⟨rfl, ?_⟩
      rw [List.length_append, List.length_append, (hA.forward l hl).2, (hB.forward m hm).2]
    have bwd : ∀ ls, ls.length = (o₁ ++ o₂).length → c.inverseTransform ls = .ok (labelsOfBoth o₁.length B₁ B₂ ls) ∧
        (labelsOfBoth o₁.length B₁ B₂ ls).length = (x ++ y).length := by
      intro ls hl
      obtain ⟨l, m, rfl, hl, hm⟩ := length_split (n := o₁.length) (m := o₂.length) (by rw [hl, List.length_append])
      have e := hg l m hl hm
      rw [(hA.backward l hl).1, (hB.backward m hm).1] at e
      rw [labelsOfBoth_append hl, e]
      refine ⟨rfl, ?_⟩
      rw [List.length_append, List.length_append, (hA.backward l hl).2, (hB.backward m hm).2]
    obtain ⟨e1, e2⟩ := fwd (List.replicate (x ++ y).length 0) List.length_replicate
    have hl := C15_transform_length c _ _ e1
    exact ⟨c, hc, by rw [← hl.1, List.length_replicate], by rw [← hl.2, e2], fwd, bwd⟩

/-- `p` turns `s` into `m`, then `q` turns it into `o`. -/
def ActTwo (p q : Op) (s m o : Str) (F B : List Int → List Int) : Prop :=
  ∃ F₁ B₁ F₂ B₂, Act p s m F₁ B₁ ∧ Act q m o F₂ B₂ ∧ (∀ ls, ls.length = s.length → F ls = F₂ (F₁ ls)) ∧
    ∀ ys, ys.length = o.length → B ys = B₁ (B₂ ys)

theorem actTwo_still {p q : Op} {s o : Str} {F B : List Int → List Int} (h₁ : Act p s s id id) (h₂ : Act q s o F B) :
    ActTwo p q s s o F B := ⟨_, _, _, _, h₁, h₂, fun _ _ => rfl, fun _ _ => rfl⟩

theorem actTwo_done {p q : Op} {s o : Str} {F B : List Int → List Int} (h₁ : Act p s o F B) (h₂ : Act q o o id id) :
    ActTwo p q s o o F B := ⟨_, _, _, _, h₁, h₂, fun _ _ => rfl, fun _ _ => rfl⟩

theorem actTwo_join {p q : Op} {x y m₁ m₂ o₁ o₂ : Str} {F₁ B₁ F₂ B₂ : List Int → List Int}
    (h₁ : ActTwo p q x m₁ o₁ F₁ B₁) (h₂ : ActTwo p q y m₂ o₂ F₂ B₂) (hp : InParts (opOutcome p) (.str x) (.str y))
    (hq : InParts (opOutcome q) (.str m₁) (.str m₂)) :
    ActTwo p q (x ++ y) (m₁ ++ m₂) (o₁ ++ o₂) (labelsOfBoth x.length F₁ F₂) (labelsOfBoth o₁.length B₁ B₂) := by
  obtain ⟨f₁, b₁, g₁, c₁, p₁, q₁, e₁, d₁⟩ := h₁
  obtain ⟨f₂, b₂, g₂, c₂, p₂, q₂, e₂, d₂⟩ := h₂
  refine ⟨_, _, _, _, act_join p₁ p₂ hp, act_join q₁ q₂ hq, fun ls hl => ?_, fun ys hl => ?_⟩
  · obtain ⟨l, m, rfl, hl, hm⟩ := length_split (n := x.length) (m := y.length) (by rw [hl, List.length_append])
    obtain ⟨a, _, ha⟩ := p₁
    rw [labelsOfBoth_append hl, labelsOfBoth_append hl, labelsOfBoth_append (ha.forward l hl).2, e₁ l hl, e₂ m hm]
  · obtain ⟨l, m, rfl, hl, hm⟩ := length_split (n := o₁.length) (m := o₂.length) (by rw [hl, List.length_append])
    obtain ⟨a, _, ha⟩ := q₁
    rw [labelsOfBoth_append hl, labelsOfBoth_append hl, labelsOfBoth_append (ha.backward l hl).2, d₁ l hl, d₂ m hm]

/-- A pipe with known labels. -/
structure Does (xs : List Op) (s o : Str) (F B : List Int → List Int) : Prop where
  run : ∃ as coll, Pipe.transformSequence ⟨xs, []⟩ (.str s) = .ok (.str o, as, coll) ∧
    (∀ ls, alignAll as ls = if ls.length = s.length then .ok (F ls) else .error .valueError) ∧
    ∀ ys, realignAll as ys = if ys.length = o.length then .ok (B ys) else .error .valueError

theorem does_two {p q : Op} {s m o : Str} {F B : List Int → List Int} (h : ActTwo p q s m o F B) : Does [p, q] s o F B := by
  obtain ⟨F₁, B₁, F₂, B₂, ⟨a, h₁, ha⟩, ⟨b, h₂, hb⟩, e, d⟩ := h
  refine ⟨_, _, run_two h₁ h₂, fun ls => ?_, fun ys => ?_⟩
  · show (a.transform ls >>= fun x => b.transform x >>= fun y => .ok y) = _
    split
    · rename_i hl
      rw [(ha.forward ls hl).1, Except.bind_ok, (hb.forward _ (ha.forward ls hl).2).1, e ls hl]
      rfl
    · rename_i hl
      rw [C15_transform_wrong_length a ls (by rw [ha.input]; exact hl)]
      rfl
  · rw [realignAll_cons, realignAll_cons]
    show (b.inverseTransform ys >>= fun x => a.inverseTransform x) = _
    split
    · rename_i hl
      rw [(hb.backward ys hl).1, Except.bind_ok, (ha.backward _ (hb.backward ys hl).2).1, d ys hl]
    · rename_i hl
      rw [C15_inverse_wrong_length b ys (by rw [hb.output]; exact hl)]
      rfl

theorem does_same {xs ys : List Op} {s o : Str} {F B : List Int → List Int} (h₁ : Does xs s o F B) (h₂ : Does ys s o F B) :
    SameOutcome (Pipe.transformSequence ⟨xs, []⟩ (.str s)) (Pipe.transformSequence ⟨ys, []⟩ (.str s)) := by
  obtain ⟨as, coll, e₁, f₁, b₁⟩ := h₁.run
  obtain ⟨as', coll', e₂, f₂, b₂⟩ := h₂.run
  rw [e₁, e₂]
  exact .ok _ _ _ _ _ (fun ls => by rw [f₁, f₂]) fun ys => by rw [b₁, b₂]

/-! ### pieces of a text -/

theorem mem_takeWhile_true {P : Char → Bool} {l : Str} {d : Char} (h : d ∈ l.takeWhile P) : P d = true := by
  have := List.all_takeWhile (p := P) (l := l)
  rw [List.all_eq_true] at this
  exact this d h

theorem takeWhile_split (P : Char → Bool) (c : Char) (cs : Str) (h : P c = true) :
    ∃ r rest, c :: cs = r ++ rest ∧ r ≠ [] ∧ (∀ d ∈ r, P d = true) ∧ ∀ d ∈ rest.head?, P d = false := by
  refine ⟨(c :: cs).takeWhile P, (c :: cs).dropWhile P, List.takeWhile_append_dropWhile.symm, ?_, ?_, ?_⟩
  · rw [List.takeWhile_cons_of_pos h]
    exact List.cons_ne_nil _ _
  · exact fun d hd => mem_takeWhile_true hd
  · intro d hd
    have := List.head?_dropWhile_not P (c :: cs)
    cases hh : ((c :: cs).dropWhile P).head? with
    | none => rw [hh] at hd; cases hd
    | some e =>
      rw [hh] at this hd
      cases hd
      simpa using this

/-- A text is made of runs of `P`, runs of `Q` and other characters. -/
theorem pieces_induction {P Q : Char → Bool} {M : Str → Prop} (nil : M [])
    (first : ∀ r rest, r ≠ [] → (∀ d ∈ r, P d = true) → (∀ d ∈ rest.head?, P d = false) → M rest → M (r ++ rest))
    (second : ∀ r rest, r ≠ [] → (∀ d ∈ r, Q d = true) → (∀ d ∈ rest.head?, Q d = false) → M rest → M (r ++ rest))
    (other : ∀ r rest, r ≠ [] → (∀ d ∈ r, P d = false) → (∀ d ∈ r, Q d = false) → M rest → M (r ++ rest)) (s : Str) : M s := by
  generalize hn : s.length = n
  induction n using Nat.strongRecOn generalizing s with
  | ind n ih =>
    cases s with
    | nil => exact nil
    | cons c cs =>
      have later : ∀ r rest, c :: cs = r ++ rest → r ≠ [] → M rest := by
        intro r rest e hr
        refine ih rest.length ?_ rest rfl
        have := List.length_pos_iff.mpr hr
        have hl := congrArg List.length e
        rw [List.length_append] at hl
        omega
      by_cases hp : P c = true
      · obtain ⟨r, rest, e, h1, h2, h3⟩ := takeWhile_split P c cs hp
        rw [e]
        exact first r rest h1 h2 h3 (later r rest e h1)
      · by_cases hq : Q c = true
        · obtain ⟨r, rest, e, h1, h2, h3⟩ := takeWhile_split Q c cs hq
          rw [e]
          exact second r rest h1 h2 h3 (later r rest e h1)
        · refine other [c] cs (List.cons_ne_nil _ _) ?_ ?_ (later [c] cs rfl (List.cons_ne_nil _ _))
          · intro d hd
            obtain rfl : d = c := by simpa using hd
            simpa using hp
          · intro d hd
            obtain rfl : d = c := by simpa using hd
            simpa using hq

/-! ### steps that deal with runs of some characters -/

/-- `op` deals with runs of `P`, and writes characters of `P` or `W`. -/
structure RunStep (op : Op) (P : Char → Bool) (W : Str) : Prop where
  input : op.cls.inputType = .str
  parts : ∀ x y, PartedAt P x y → InParts (opOutcome op) (.str x) (.str y)
  still : ∀ t, (∀ c ∈ t, P c = false) → Act op t t id id
  run : ∀ r, r ≠ [] → (∀ c ∈ r, P c = true) → ∃ o F B, Act op r o F B ∧ o ≠ [] ∧ ∀ c ∈ o, P c = true ∨ c ∈ W

/-- What is left of a run: the run itself, or a text without characters of `P`. -/
def Clears (op : Op) (P : Char → Bool) : Prop :=
  ∀ r, r ≠ [] → (∀ c ∈ r, P c = true) → Act op r r id id ∨ ∃ o F B, Act op r o F B ∧ o ≠ [] ∧ ∀ c ∈ o, P c = false

theorem parted_of_left {P : Char → Bool} {x y : Str} (h : ∀ c ∈ x, P c = false) : PartedAt P x y := fun c hc _ _ =>
  .inl (h c (List.mem_of_getLast? (by simpa using hc)))

theorem parted_of_right {P : Char → Bool} {x y : Str} (h : ∀ c ∈ y.head?, P c = false) : PartedAt P x y := fun _ _ d hd =>
  .inr (h d hd)

theorem head_append {r rest : Str} (h : r ≠ []) : (r ++ rest).head? = r.head? := by
  cases r with
  | nil => exact absurd rfl h
  | cons c r => rfl

/-- Both orders on a text, and the beginnings of what one of the steps leaves. -/
def Exchange (p q : Op) (P Q : Char → Bool) (s : Str) : Prop :=
  ∃ m m' o F B, ActTwo p q s m o F B ∧ ActTwo q p s m' o F B ∧
    (∀ c ∈ m.head?, Q c = true → c ∈ s.head?) ∧ ∀ c ∈ m'.head?, P c = true → c ∈ s.head?

theorem exchange_join {p q : Op} {P Q : Char → Bool} {r rest m m' o : Str} {F B : List Int → List Int}
    (h₁ : ActTwo p q r m o F B) (h₂ : ActTwo q p r m' o F B) (h : Exchange p q P Q rest)
    (hp : InParts (opOutcome p) (.str r) (.str rest)) (hq : InParts (opOutcome q) (.str r) (.str rest))
    (hpq : ∀ t, (∀ c ∈ t.head?, Q c = true → c ∈ rest.head?) → InParts (opOutcome q) (.str m) (.str t))
    (hqp : ∀ t, (∀ c ∈ t.head?, P c = true → c ∈ rest.head?) → InParts (opOutcome p) (.str m') (.str t))
    (hm : m ≠ []) (hm' : m' ≠ []) (hr : r ≠ []) (hh : ∀ c ∈ m.head?, Q c = true → c ∈ r.head?)
    (hh' : ∀ c ∈ m'.head?, P c = true → c ∈ r.head?) : Exchange p q P Q (r ++ rest) := by
  obtain ⟨n, n', o', F', B', k₁, k₂, e₁, e₂⟩ := h
  refine ⟨m ++ n, m' ++ n', o ++ o', _, _, actTwo_join h₁ k₁ hp (hpq n e₁), actTwo_join h₂ k₂ hq (hqp n' e₂), ?_, ?_⟩
  · rw [head_append hm, head_append hr]
    exact hh
  · rw [head_append hm', head_append hr]
    exact hh'

theorem exchange_all {p q : Op} {P Q : Char → Bool} {V W : Str} (hp : RunStep p P V) (hq : RunStep q Q W)
    (hd : ∀ c, P c = true → Q c = false) (hV : ∀ c ∈ V, Q c = false) (hW : ∀ c ∈ W, P c = false) (s : Str) :
    Exchange p q P Q s := by
  have hd' : ∀ c, Q c = true → P c = false := fun c h => by
    cases hpc : P c with
    | false => rfl
    | true => rw [hd c hpc] at h; cases h
  refine pieces_induction (P := P) (Q := Q) ?_ ?_ ?_ ?_ s
  · have h1 := hp.still [] (by simp)
    have h2 := hq.still [] (by simp)
    exact ⟨_, _, _, _, _, actTwo_still h1 h2, actTwo_still h2 h1, fun c h => (by cases h), fun c h => (by cases h)⟩
  · intro r rest hr hall hrest hM
    obtain ⟨o, F, B, h1, ho, hw⟩ := hp.run r hr hall
    have hoQ : ∀ c ∈ o, Q c = false := fun c hc => (hw c hc).elim (hd c) (hV c)
    have hrQ : ∀ c ∈ r, Q c = false := fun c hc => hd c (hall c hc)
    refine exchange_join (actTwo_done h1 (hq.still o hoQ)) (actTwo_still (hq.still r hrQ) h1) hM
      (hp.parts _ _ (parted_of_right hrest)) (hq.parts _ _ (parted_of_left hrQ))
      (fun t _ => hq.parts _ _ (parted_of_left hoQ)) (fun t ht => hp.parts _ _ (parted_of_right fun c hc => ?_)) ho hr hr
      (fun c hc hq => ?_) (fun c hc _ => hc)
    · cases hpc : P c with
      | false => rfl
      | true => rw [← hpc, hrest c (ht c hc hpc)]
    · have := hoQ c (List.mem_of_head? (by simpa using hc))
      rw [this] at hq
      cases hq
  · intro r rest hr hall hrest hM
    obtain ⟨o, F, B, h1, ho, hw⟩ := hq.run r hr hall
    have hoP : ∀ c ∈ o, P c = false := fun c hc => (hw c hc).elim (hd' c) (hW c)
    have hrP : ∀ c ∈ r, P c = false := fun c hc => hd' c (hall c hc)
    refine exchange_join (actTwo_still (hp.still r hrP) h1) (actTwo_done h1 (hp.still o hoP)) hM
      (hp.parts _ _ (parted_of_left hrP)) (hq.parts _ _ (parted_of_right hrest))
      (fun t ht => hq.parts _ _ (parted_of_right fun c hc => ?_)) (fun t _ => hp.parts _ _ (parted_of_left hoP)) hr ho hr
      (fun c hc _ => hc) (fun c hc hp => ?_)
    · cases hpc : Q c with
      | false => rfl
      | true => rw [← hpc, hrest c (ht c hc hpc)]
    · have := hoP c (List.mem_of_head? (by simpa using hc))
      rw [this] at hp
      cases hp
  · intro r rest hr hP hQ hM
    have h1 := hp.still r hP
    have h2 := hq.still r hQ
    exact exchange_join (actTwo_still h1 h2) (actTwo_still h2 h1) hM (hp.parts _ _ (parted_of_left hP))
      (hq.parts _ _ (parted_of_left hQ)) (fun t _ => hq.parts _ _ (parted_of_left hQ))
      (fun t _ => hp.parts _ _ (parted_of_left hP)) hr hr hr (fun c hc _ => hc) fun c hc _ => hc

theorem exchange_same {p q : Op} {P Q : Char → Bool} (hp : p.cls.inputType = .str) (hq : q.cls.inputType = .str)
    (h : ∀ s, Exchange p q P Q s) : Interchangeable [p, q] [q, p] := by
  intro s
  cases s with
  | list l => rw [run_list hp, run_list hq]; exact .error _
  | str s =>
    obtain ⟨_, _, _, _, _, h1, h2, _⟩ := h s
    exact does_same (does_two h1) (does_two h2)

/-- Two steps that deal with runs of the same characters, each run left alone by one of them. -/
theorem exchange_runs {p q : Op} {P : Char → Bool} {V W : Str} (hp : RunStep p P V) (hq : RunStep q P W)
    (cp : Clears p P) (cq : Clears q P) (hone : ∀ r, r ≠ [] → (∀ c ∈ r, P c = true) → Act p r r id id ∨ Act q r r id id)
    (s : Str) : Exchange p q P P s := by
  have edge : ∀ {rest : Str}, (∀ d ∈ rest.head?, P d = false) → ∀ t : Str, (∀ c ∈ t.head?, P c = true → c ∈ rest.head?) →
      ∀ c ∈ t.head?, P c = false := by
    intro rest hrest t ht c hc
    cases hpc : P c with
    | false => rfl
    | true => rw [← hpc, hrest c (ht c hc hpc)]
  have key : ∀ r rest, r ≠ [] → (∀ d ∈ r, P d = true) → (∀ d ∈ rest.head?, P d = false) → Exchange p q P P rest →
      Exchange p q P P (r ++ rest) := by
    intro r rest hr hall hrest hM
    have ip := hp.parts r rest (parted_of_right hrest)
    have iq := hq.parts r rest (parted_of_right hrest)
    have stay : ∀ (op : Op), (∀ x y, PartedAt P x y → InParts (opOutcome op) (.str x) (.str y)) → ∀ m t : Str,
        (∀ c ∈ t.head?, P c = true → c ∈ rest.head?) → InParts (opOutcome op) (.str m) (.str t) :=
      fun op hop m t ht => hop _ _ (parted_of_right (edge hrest t ht))
    have nohead : ∀ o : Str, (∀ c ∈ o, P c = false) → ∀ c ∈ o.head?, P c = true → c ∈ r.head? := by
      intro o ho c hc hpc
      rw [ho c (List.mem_of_head? (by simpa using hc))] at hpc
      cases hpc
    rcases hone r hr hall with h | h
    · rcases cq r hr hall with h' | ⟨o, F, B, h', ho, hn⟩
      · exact exchange_join (actTwo_still h h') (actTwo_still h' h) hM ip iq (stay q hq.parts r) (stay p hp.parts r) hr hr hr
          (fun c hc _ => hc) fun c hc _ => hc
      · exact exchange_join (actTwo_still h h') (actTwo_done h' (hp.still o hn)) hM ip iq (stay q hq.parts r)
          (stay p hp.parts o) hr ho hr (fun c hc _ => hc) (nohead o hn)
    · rcases cp r hr hall with h' | ⟨o, F, B, h', ho, hn⟩
      · exact exchange_join (actTwo_still h' h) (actTwo_still h h') hM ip iq (stay q hq.parts r) (stay p hp.parts r) hr hr hr
          (fun c hc _ => hc) fun c hc _ => hc
      · exact exchange_join (actTwo_done h' (hq.still o hn)) (actTwo_still h h') hM ip iq (stay q hq.parts o)
          (stay p hp.parts r) ho hr hr (nohead o hn) fun c hc _ => hc
  refine pieces_induction (P := P) (Q := P) ?_ key key ?_ s
  · have h1 := hp.still [] (by simp)
    have h2 := hq.still [] (by simp)
    exact ⟨_, _, _, _, _, actTwo_still h1 h2, actTwo_still h2 h1, fun c h => (by cases h), fun c h => (by cases h)⟩
  · intro r rest hr hP _ hM
    have h1 := hp.still r hP
    have h2 := hq.still r hP
    exact exchange_join (actTwo_still h1 h2) (actTwo_still h2 h1) hM (hp.parts _ _ (parted_of_left hP))
      (hq.parts _ _ (parted_of_left hP)) (fun t _ => hq.parts _ _ (parted_of_left hP))
      (fun t _ => hp.parts _ _ (parted_of_left hP)) hr hr hr (fun c hc _ => hc) fun c hc _ => hc

/-! ### the steps -/

theorem act_still {p : Op} {s : Str} {a : Aligner} (h : p.transform (.str s) = .ok (.str s, a)) (hi : a.inputLength = s.length)
    (ho : a.outputLength = s.length) (hp : PassThrough a s.length) : Act p s s id id :=
  ⟨a, h, hi, ho, fun ls hl => ⟨(hp ls hl).1, hl⟩, fun ys hl => ⟨(hp ys hl).2, hl⟩⟩

theorem runs_none {P : Char → Bool} {t : Str} (h : ∀ c ∈ t, P c = false) : ∀ r ∈ runs P t, isRunOf P r = false := by
  intro r hr
  obtain ⟨h1, h2⟩ := mem_runs P t r hr
  cases r with
  | nil => exact absurd rfl h1
  | cons c r =>
    have hm : c ∈ t := by
      rw [← runs_flatten P t]
      exact List.mem_flatten.mpr ⟨_, hr, List.mem_cons_self ..⟩
    show P c = false
    exact h c hm

theorem runs_whole {P : Char → Bool} {r : Str} (hr : r ≠ []) (h : ∀ c ∈ r, P c = true) : runs P r = [r] := by
  have := isRuns_unique P true [r] (by simpa [IsRuns] using ⟨hr, h⟩)
  simpa using this

theorem law_still {op : Op} {name : String} {f : Str → Res (Str × Aligner)} {rec : Str → Bool} {new : Str → Str}
    {F G : Str → List Int → List Int} (ho : op = ⟨Builtin.simple name .str .str (strOp f), [], strOp f⟩) {s : Str}
    {rs : List Str} (h : SegLaw f rec new F G s rs) (hn : ∀ r ∈ rs, rec r = false) : Act op s s id id := by
  obtain ⟨e, a, h1, h2, h3⟩ := h
  have hm : (rs.map fun r => if rec r then new r else r) = rs := by
    conv => rhs; rw [← List.map_id rs]
    refine List.map_congr_left fun r hr => ?_
    rw [hn r hr]
    rfl
  rw [hm] at h1 h3
  rw [e] at h1 h3
  have hp : PassThrough a s.length := fun ls hl =>
    ⟨by rw [h2 ls hl, mapLabels_idle hn ls (by rw [e]; exact hl)], by rw [h3 ls hl, mapLabels_idle hn ls (by rw [e]; exact hl)]⟩
  have hl := C15_transform_length a _ _ (hp (List.replicate s.length 0) List.length_replicate).1
  rw [List.length_replicate] at hl
  subst ho
  exact act_still (strOp_transform h1) hl.1.symm hl.2.symm hp

theorem law_run {op : Op} {name : String} {f : Str → Res (Str × Aligner)} {rec : Str → Bool} {new : Str → Str}
    {F G : Str → List Int → List Int} (ho : op = ⟨Builtin.simple name .str .str (strOp f), [], strOp f⟩) {s : Str}
    (h : SegLaw f rec new F G s [s]) (hn : rec s = true) (hF : ∀ ls, (F s ls).length = (new s).length)
    (hG : ∀ ls, (G s ls).length = s.length) : Act op s (new s) (F s) (G s) := by
  obtain ⟨-, a, h1, h2, h3⟩ := h
  simp only [List.map_cons, List.map_nil, hn, if_true, List.flatten_cons, List.flatten_nil, List.append_nil] at h1 h3
  have e2 : ∀ ls, ls.length = s.length → a.transform ls = .ok (F s ls) := by
    intro ls hl
    rw [h2 ls hl]
    simp [mapLabels, splitLike, hn, List.take_of_length_le (Nat.le_of_eq hl)]
  have e3 : ∀ ls, ls.length = (new s).length → a.inverseTransform ls = .ok (G s ls) := by
    intro ls hl
    rw [h3 ls hl]
    simp [mapLabels, splitLike, hn, List.take_of_length_le (Nat.le_of_eq hl)]
  have hl := C15_transform_length a _ _ (e2 (List.replicate s.length 0) List.length_replicate)
  rw [List.length_replicate, hF] at hl
  subst ho
  exact ⟨a, strOp_transform h1, hl.1.symm, hl.2.symm, fun ls h => ⟨e2 ls h, hF ls⟩, fun ls h => ⟨e3 ls h, hG ls⟩⟩

/-- A number recogniser on a run of number characters. -/
theorem number_run {u : Unicode} {q : Str → Bool} {token : Str} {F : List Int → List Int} {f : Str → Res (Str × Aligner)}
    {name : String} {op : Op} (ho : op = ⟨Builtin.simple name .str .str (strOp f), [], strOp f⟩)
    (h : ∀ s, NumberOp u q token F f s) (hF : ∀ ls, (F ls).length = token.length) (r : Str) (hr : r ≠ [])
    (hall : ∀ c ∈ r, numeric u c = true) :
    (q r = false ∧ Act op r r id id) ∨ (q r = true ∧ ∃ F B, Act op r token F B) := by
  have hl := number_segLaw h r
  rw [runs_whole hr hall] at hl
  have hru : isRunOf (numeric u) r = true := isRunOf_uniform hr hall
  cases hq : q r with
  | false => exact .inl ⟨rfl, law_still ho hl fun x hx => by rw [List.mem_singleton.mp hx, hq, Bool.and_false]⟩
  | true =>
    exact .inr ⟨rfl, _, _, law_run ho hl (by rw [hru, hq]; rfl) (fun ls => hF ls) fun ls => List.length_replicate⟩

theorem number_still {u : Unicode} {q : Str → Bool} {token : Str} {F : List Int → List Int} {f : Str → Res (Str × Aligner)}
    {name : String} {op : Op} (ho : op = ⟨Builtin.simple name .str .str (strOp f), [], strOp f⟩)
    (h : ∀ s, NumberOp u q token F f s) (t : Str) (hall : ∀ c ∈ t, numeric u c = false) : Act op t t id id :=
  law_still ho (number_segLaw h t) fun r hr => by rw [runs_none hall r hr, Bool.false_and]

/-- The number recognisers: the runs that they rewrite, and the token. -/
structure NumberStep (env : Env) (op : Op) (q : Str → Bool) (token : Str) : Prop where
  input : op.cls.inputType = .str
  parts : ∀ x y, PartedAt (numeric env.u) x y → InParts (opOutcome op) (.str x) (.str y)
  still : ∀ t, (∀ c ∈ t, numeric env.u c = false) → Act op t t id id
  run : ∀ r, r ≠ [] → (∀ c ∈ r, numeric env.u c = true) →
    (q r = false ∧ Act op r r id id) ∨ (q r = true ∧ ∃ F B, Act op r token F B)
  token : token ≠ []

theorem NumberStep.runStep {env : Env} {op : Op} {q : Str → Bool} {token : Str} (h : NumberStep env op q token) :
    RunStep op (numeric env.u) token where
  input := h.input
  parts := h.parts
  still := h.still
  run r hr hall := by
    rcases h.run r hr hall with ⟨_, h1⟩ | ⟨_, F, B, h1⟩
    · exact ⟨r, _, _, h1, hr, fun c hc => .inl (hall c hc)⟩
    · exact ⟨_, _, _, h1, h.token, fun c hc => .inr hc⟩

theorem NumberStep.clears {env : Env} {op : Op} {q : Str → Bool} {token : Str} (h : NumberStep env op q token)
    (ht : ∀ c ∈ token, numeric env.u c = false) : Clears op (numeric env.u) := fun r hr hall => by
  rcases h.run r hr hall with ⟨_, h1⟩ | ⟨_, F, B, h1⟩
  · exact .inl h1
  · exact .inr ⟨_, _, _, h1, h.token, ht⟩

theorem dot_of (u : Unicode) (hd : AsciiDigits u) : u.isDecimal '.' = false := by
  rw [Bool.eq_false_iff]
  intro h
  exact absurd ((hd '.' (by decide)).mp h) (by decide)

theorem whole_step {env : Env} (hdot : env.u.isDecimal '.' = false) {name : String} (hn : name ∈ wholeNames) {op : Op}
    (h : Made env name op) : NumberStep env op (isInteger env.u) (written name) := by
  have parts := C79_numbers env hdot name op h (by
    unfold wholeNames at hn
    simp only [List.mem_cons, List.not_mem_nil, or_false] at hn ⊢
    rcases hn with rfl | rfl | rfl <;> simp)
  unfold wholeNames at hn
  simp only [List.mem_cons, List.not_mem_nil, or_false] at hn
  rcases hn with rfl | rfl | rfl
  · have ho := made_simple (env := env) (name := "IntToken") rfl h
    have hl := fun s => C18_C19_int_token env.σ env.u s
    exact ⟨by rw [ho]; rfl, parts, number_still ho hl, number_run ho hl fun ls => List.length_replicate, by decide⟩
  · have ho := made_simple (env := env) (name := "IntTokenWithSpace") rfl h
    have hl := fun s => C18_C19_int_token_with_space env.σ env.u s
    exact ⟨by rw [ho]; rfl, parts, number_still ho hl, number_run ho hl fun ls => by rw [List.length_append, List.length_append, List.length_replicate]; rfl, by decide⟩
  · have ho := made_simple (env := env) (name := "NumTokenWithSpace") rfl h
    have hl := fun s => C18_C19_num_token_with_space env.σ env.u s
    exact ⟨by rw [ho]; rfl, parts, number_still ho hl, number_run ho hl fun ls => by rw [List.length_append, List.length_append, List.length_replicate]; rfl, by decide⟩

theorem decimal_step {env : Env} (hdot : env.u.isDecimal '.' = false) {name : String} (hn : name ∈ decimalNames) {op : Op}
    (h : Made env name op) : NumberStep env op (isFloat env.u) (written name) := by
  have parts := C79_numbers env hdot name op h (by
    unfold decimalNames at hn
    simp only [List.mem_cons, List.not_mem_nil, or_false] at hn ⊢
    rcases hn with rfl | rfl <;> simp)
  unfold decimalNames at hn
  simp only [List.mem_cons, List.not_mem_nil, or_false] at hn
  rcases hn with rfl | rfl
  · have ho := made_simple (env := env) (name := "FloatToken") rfl h
    have hl := fun s => C18_C19_float_token env.σ env.u hdot s
    exact ⟨by rw [ho]; rfl, parts, number_still ho hl, number_run ho hl fun ls => List.length_replicate, by decide⟩
  · have ho := made_simple (env := env) (name := "FloatTokenWithSpace") rfl h
    have hl := fun s => C18_C19_float_token_with_space env.σ env.u hdot s
    exact ⟨by rw [ho]; rfl, parts, number_still ho hl, number_run ho hl fun ls => by rw [List.length_append, List.length_append, List.length_replicate]; rfl, by decide⟩

theorem merge_step {env : Env} {op : Op} (h : Made env "MergeWhiteSpaceCharacters" op) : RunStep op isSpace [' '] := by
  have ho := made_simple (env := env) (name := "MergeWhiteSpaceCharacters") rfl h
  refine ⟨by rw [ho]; rfl, C79_merge env op h, fun t ht => ?_, fun r hr hall => ?_⟩
  · exact law_still ho (merge_segLaw env.σ t) fun r hr => by rw [runs_none ht r hr, Bool.false_and]
  · have hl := merge_segLaw env.σ r
    rw [runs_whole hr hall] at hl
    exact ⟨[' '], _, _, law_run ho hl (by rw [isRunOf_uniform hr hall]; rfl) (fun ls => rfl) fun ls => List.length_replicate,
      by simp, fun c hc => .inr hc⟩

theorem act_pass {p : Op} {s o : Str} {a : Aligner} (h : p.transform (.str s) = .ok (.str o, a)) (hl : o.length = s.length)
    (ha : Aligned a s.length s.length anyLabels) (hp : PassThrough a s.length) : Act p s o id id :=
  ⟨a, h, ha.input, by rw [ha.output, hl], fun ls h => ⟨(hp ls h).1, by rw [hl]; exact h⟩, fun ys h =>
    ⟨(hp ys (by rw [← hl]; exact h)).2, by rw [← hl]; exact h⟩⟩

theorem lower_step {env : Env} {op : Op} (h : Made env "Lowercase" op) : RunStep op (fun c => capitals.contains c) smalls := by
  have ho := made_simple (env := env) (name := "Lowercase") rfl h
  have hact : ∀ s, Act op s (s.map asciiLower) id id := fun s => by
    obtain ⟨a, h1, h2, h3⟩ := C16_lowercase env.σ s
    subst ho
    exact act_pass (strOp_transform h1) (List.length_map ..) h2 h3
  refine ⟨by rw [ho]; rfl, fun x y _ => C79_any_parts env _ op h (by simp) _ _, fun t ht => ?_, fun r hr hall => ?_⟩
  · have e : t.map asciiLower = t := by
      conv => rhs; rw [← List.map_id t]
      refine List.map_congr_left fun c hc => ?_
      rcases asciiLower_cases c with h | h
      · exact h
      · have := ht c hc
        rw [List.contains_iff_mem.mpr h] at this
        cases this
    have := hact t
    rwa [e] at this
  · refine ⟨_, _, _, hact r, by simpa using hr, fun c hc => .inr ?_⟩
    obtain ⟨d, hd, rfl⟩ := List.mem_map.mp hc
    have hm : d ∈ capitals := List.contains_iff_mem.mp (hall d hd)
    exact (by decide : ∀ d ∈ capitals, asciiLower d ∈ smalls) d hm

theorem around_step {env : Env} {op : Op} {name : String} {valid : Char → Bool}
    (ho : op = ⟨Builtin.simple name .str .str (strOp (AddWhitespaceAroundChar.transform env.σ valid)), [],
      strOp (AddWhitespaceAroundChar.transform env.σ valid)⟩) : RunStep op valid [' '] := by
  refine ⟨by rw [ho]; rfl, fun x y _ => ?_, fun t ht => ?_, fun r hr hall => ?_⟩
  · subst ho
    exact inParts_strOp rfl rfl rfl (around_parts env.σ _ x y)
  · obtain ⟨a, h1, h2, h3, h4, h5⟩ := C17_around env.σ valid t
    have e : (t.flatMap fun c => if valid c then [' ', c, ' '] else [c]) = t := by
      conv => rhs; rw [← List.flatMap_singleton' t]
      refine flatMap_congr_mem fun c hc => ?_
      rw [ht c hc]
      rfl
    rw [e] at h1 h2
    have hf : ∀ ls, ls.length = t.length → a.transform ls = .ok ls := by
      intro ls hl
      rw [h3 ls hl]
      congr 1
      have e2 : ((t.zip ls).flatMap fun p => if valid p.1 then [0, p.2, 0] else [p.2]) = (t.zip ls).flatMap fun p => [p.2] := by
        refine flatMap_congr_mem fun p hp => ?_
        rw [ht p.1 (List.of_mem_zip hp).1]
        rfl
      rw [e2, ← List.map_eq_flatMap]
      exact List.map_snd_zip (Nat.le_of_eq hl)
    subst ho
    exact act_still (strOp_transform h1) h2.input h2.output fun ls hl => ⟨hf ls hl, h5 ls ls (hf ls hl)⟩
  · obtain ⟨a, h1, h2, h3, h4, _⟩ := C17_around env.σ valid r
    subst ho
    refine ⟨_, _, _, ⟨a, strOp_transform h1, answers_of h2 h3 h4⟩, ?_, ?_⟩
    · cases r with
      | nil => exact absurd rfl hr
      | cons c r => rw [List.flatMap_cons]; split <;> simp
    · intro c hc
      obtain ⟨d, hd, hc⟩ := List.mem_flatMap.mp hc
      rw [hall d hd] at hc
      simp only [if_true, List.mem_cons, List.not_mem_nil, or_false] at hc
      rcases hc with rfl | rfl | rfl
      · exact .inr (List.mem_singleton_self _)
      · exact .inl (hall c hd)
      · exact .inr (List.mem_singleton_self _)

theorem blank_step {env : Env} {op : Op} (h : Made env "PunctuationExceptEndpointToWhitespace" op) :
    RunStep op (fun c => decide ((c ∈ asciiPunctuation ∨ env.u.isCatP c = true) ∧ c ≠ '.')) [' '] := by
  have ho := made_simple (env := env) (name := "PunctuationExceptEndpointToWhitespace") rfl h
  refine ⟨by rw [ho]; rfl, fun x y _ => C79_any_parts env _ op h (by simp) _ _, fun t ht => ?_, fun r hr hall => ?_⟩
  · obtain ⟨a, h1, h2, h3⟩ := C26_transform env.σ env.u t
    have e : t.map (punctuationBlanked env.u) = t := by
      conv => rhs; rw [← List.map_id t]
      refine List.map_congr_left fun c hc => ?_
      unfold punctuationBlanked
      rw [if_neg (of_decide_eq_false (ht c hc))]
      rfl
    rw [e] at h1
    subst ho
    refine act_still (strOp_transform h1) h2.input h2.output fun ls hl => ?_
    have e2 : ((t.zip ls).map fun p => if (p.1 ∈ asciiPunctuation ∨ env.u.isCatP p.1 = true) ∧ p.1 ≠ '.' then 0 else p.2) = ls := by
      have : ((t.zip ls).map fun p => if (p.1 ∈ asciiPunctuation ∨ env.u.isCatP p.1 = true) ∧ p.1 ≠ '.' then 0 else p.2) =
          (t.zip ls).map Prod.snd := List.map_congr_left fun p hp => by
        rw [if_neg (of_decide_eq_false (ht p.1 (List.of_mem_zip hp).1))]
      rw [this]
      exact List.map_snd_zip (Nat.le_of_eq hl)
    have := h3 ls hl
    rw [e2] at this
    exact this
  · obtain ⟨a, h1, h2, h3⟩ := C26_transform env.σ env.u r
    subst ho
    have hl : (r.map (punctuationBlanked env.u)).length = r.length := List.length_map ..
    rw [← hl] at h2
    refine ⟨_, _, _, ⟨a, strOp_transform h1, answers_of (by rw [hl] at h2 ⊢; exact h2) (fun ls h => (h3 ls h).1)
      fun ls h => (h3 ls (by rw [← hl]; exact h)).2⟩, by simpa using hr, fun c hc => .inr ?_⟩
    obtain ⟨d, hd, rfl⟩ := List.mem_map.mp hc
    unfold punctuationBlanked
    rw [if_pos (of_decide_eq_true (hall d hd))]
    exact List.mem_singleton_self _

theorem numeric_iff (u : Unicode) (c : Char) :
    numeric u c = true ↔ c = '.' ∨ u.isDecimal c = true ∨ c ∈ "０１２３４５６７８９".toList := by
  unfold numeric digit
  rw [Bool.or_eq_true, Bool.or_eq_true, beq_iff_eq, List.contains_iff_mem]

/-- Every one of the steps, by its characters. -/
theorem step_of {env : Env} (hdot : env.u.isDecimal '.' = false) {name : String} (hn : name ∈ dealingNames) {op : Op}
    (h : Made env name op) : ∃ P, (∀ c, P c = true ↔ DealsWith env.u name c) ∧ RunStep op P (written name) := by
  unfold dealingNames at hn
  rcases List.mem_append.mp hn with hn | hn
  · refine ⟨numeric env.u, fun c => ?_, ?_⟩
    · unfold DealsWith
      rw [if_pos hn]
      exact numeric_iff _ _
    · rcases List.mem_append.mp hn with hn | hn
      · exact (whole_step hdot hn h).runStep
      · exact (decimal_step hdot hn h).runStep
  · simp only [List.mem_cons, List.not_mem_nil, or_false] at hn
    rcases hn with rfl | rfl | rfl | rfl | rfl
    · exact ⟨_, fun c => Iff.rfl, merge_step h⟩
    · exact ⟨_, fun c => List.contains_iff_mem, lower_step h⟩
    · exact ⟨_, fun c => C17_cjk c, around_step (made_simple (env := env) rfl h)⟩
    · exact ⟨_, fun c => C17_punctuation env.u c, around_step (made_simple (env := env) rfl h)⟩
    · refine ⟨_, fun c => ?_, blank_step h⟩
      rw [decide_eq_true_iff]
      exact Iff.rfl

/-! ### C113 -/

theorem bool_false_of {b : Bool} {p : Prop} (h : b = true ↔ p) (hn : ¬ p) : b = false := by
  rw [Bool.eq_false_iff]
  exact fun e => hn (h.mp e)

/-- C113: two steps that keep out of each other's way can be exchanged: the same text and the same labels, both ways. -/
theorem C113_swap (env : Env) (hdot : env.u.isDecimal '.' = false) (n m : String) (x y : Op) (hn : n ∈ dealingNames)
    (hm : m ∈ dealingNames) (hx : Made env n x) (hy : Made env m y) (h : KeepApart env.u n m) :
    Interchangeable [x, y] [y, x] := by
  obtain ⟨P, hP, p⟩ := step_of hdot hn hx
  obtain ⟨Q, hQ, q⟩ := step_of hdot hm hy
  obtain ⟨h1, h2, h3⟩ := h
  refine exchange_same p.input q.input (exchange_all p q (fun c hc => ?_) (fun c hc => ?_) fun c hc => ?_)
  · exact bool_false_of (hQ c) fun hq => h1 c ⟨(hP c).mp hc, hq⟩
  · exact bool_false_of (hQ c) (h2 c hc)
  · exact bool_false_of (hP c) (h3 c hc)

/-- C113: integers and decimals can be replaced in either order. -/
theorem C113_numbers (env : Env) (hd : AsciiDigits env.u) (n m : String) (x y : Op) (hn : n ∈ wholeNames)
    (hm : m ∈ decimalNames) (hx : Made env n x) (hy : Made env m y) : Interchangeable [x, y] [y, x] := by
  have hdot := dot_of env.u hd
  have p := whole_step hdot hn hx
  have q := decimal_step hdot hm hy
  have ht : ∀ name ∈ wholeNames ++ decimalNames, ∀ c ∈ written name, numeric env.u c = false := by
    intro name hname c hc
    refine bool_false_of (numeric_iff env.u c) fun h => ?_
    obtain ⟨h1, h2, h3, h4⟩ := (by decide : ∀ name ∈ wholeNames ++ decimalNames, ∀ c ∈ written name,
      c.toNat < 128 ∧ c ∉ "0123456789".toList ∧ c ≠ '.' ∧ c ∉ "０１２３４５６７８９".toList) name hname c hc
    rcases h with h | h | h
    · exact h3 h
    · exact h2 ((hd c h1).mp h)
    · exact h4 h
  refine exchange_same p.input q.input (exchange_runs p.runStep q.runStep
    (p.clears (ht n (List.mem_append_left _ hn))) (q.clears (ht m (List.mem_append_right _ hm))) fun r hr hall => ?_)
  rcases q.run r hr hall with ⟨_, h⟩ | ⟨hf, _⟩
  · exact .inr h
  · rcases p.run r hr hall with ⟨_, h⟩ | ⟨hi, _⟩
    · exact .inl h
    · rw [(C20_int_keeps_decimals env.σ env.u hdot []).1 r hf] at hi
      cases hi

theorem stepsApart_symm {env : Env} {x y : Op} (h : StepsApart env x y) : StepsApart env y x := by
  obtain ⟨n, m, hx, hy, h⟩ := h
  refine ⟨m, n, hy, hx, ?_⟩
  rcases h with ⟨hn, hm, h1, h2, h3⟩ | ⟨hn, hm⟩ | ⟨hn, hm⟩
  · exact .inl ⟨hm, hn, fun c hc => h1 c ⟨hc.2, hc.1⟩, h3, h2⟩
  · exact .inr (.inr ⟨hm, hn⟩)
  · exact .inr (.inl ⟨hm, hn⟩)

/-- C113: a list of steps any two of which can be exchanged can be put in any order, and anywhere in a pipe. -/
theorem C113_order (env : Env) (hd : AsciiDigits env.u) (xs ys pre post : List Op) (h : xs.Pairwise (StepsApart env))
    (hp : xs.Perm ys) : Interchangeable (pre ++ xs ++ post) (pre ++ ys ++ post) := by
  refine C76_replace xs ys pre post ?_
  induction hp with
  | nil => exact C76_equivalence.1 []
  | cons x _ ih =>
    rename_i l₁ l₂ _
    have := C76_replace _ _ [x] [] (ih (List.pairwise_cons.mp h).2)
    rwa [List.append_nil, List.append_nil] at this
  | swap x y l =>
    have hxy : StepsApart env y x := (List.pairwise_cons.mp h).1 x (List.mem_cons_self ..)
    have : Interchangeable [y, x] [x, y] := by
      obtain ⟨n, m, hy, hx, hh⟩ := hxy
      rcases hh with ⟨hn, hm, hh⟩ | ⟨hn, hm⟩ | ⟨hn, hm⟩
      · exact C113_swap env (dot_of env.u hd) n m y x hn hm hy hx hh
      · exact C113_numbers env hd n m y x hn hm hy hx
      · exact C76_equivalence.2.1 _ _ (C113_numbers env hd m n x y hm hn hx hy)
    exact C76_replace _ _ [] l this
  | trans h₁ _ ih₁ ih₂ =>
    exact C76_equivalence.2.2 _ _ _ (ih₁ h) (ih₂ ((h₁.pairwise_iff fun h => stepsApart_symm h).mp h))

theorem deals_number {u : Unicode} {n : String} (hn : n ∈ wholeNames ++ decimalNames) (c : Char) :
    DealsWith u n c ↔ numeric u c = true := by
  unfold DealsWith
  rw [if_pos hn, numeric_iff]

/-- C113: which of the steps keep out of each other's way. -/
theorem C113_pairs (u : Unicode) (hd : AsciiDigits u) (hu : UsualClasses u) :
    (∀ n ∈ wholeNames ++ decimalNames, KeepApart u n "Lowercase" ∧ KeepApart u n "AddWhitespaceAroundCJK") ∧
    (∀ n ∈ ["IntToken", "FloatToken"], KeepApart u n "MergeWhiteSpaceCharacters") ∧
    (∀ n ∈ ["MergeWhiteSpaceCharacters", "AddWhitespaceAroundCJK", "AddWhitespaceAroundPunctuation",
      "PunctuationExceptEndpointToWhitespace"], KeepApart u "Lowercase" n) ∧
    (∀ n ∈ ["AddWhitespaceAroundPunctuation", "PunctuationExceptEndpointToWhitespace"],
      KeepApart u "AddWhitespaceAroundCJK" n) := by
  have num : ∀ c, c.toNat < 128 → c ∉ "0123456789".toList → c ≠ '.' → c ∉ "０１２３４５６７８９".toList → numeric u c = false :=
    fun c h1 h2 h3 h4 => bool_false_of (numeric_iff u c) fun h => by
      rcases h with h | h | h
      · exact h3 h
      · exact h2 ((hd c h1).mp h)
      · exact h4 h
  have numLetter : ∀ c ∈ capitals ++ smalls ++ [' '], numeric u c = false := fun c hc => by
    obtain ⟨h1, h2, h3, h4⟩ := (by decide : ∀ c ∈ capitals ++ smalls ++ [' '],
      c.toNat < 128 ∧ c ∉ "0123456789".toList ∧ c ≠ '.' ∧ c ∉ "０１２３４５６７８９".toList) c hc
    exact num c h1 h2 h3 h4
  have cjkLow : ∀ c, DealsWith u "AddWhitespaceAroundCJK" c → 128 ≤ c.toNat ∧ isSpace c = false ∧
      c ∉ "０１２３４５６７８９".toList := by
    intro c hc
    have hc : isCJK c = true := (C17_cjk c).mpr hc
    refine ⟨?_, ?_, ?_⟩
    · simp only [isCJK, Bool.or_eq_true, Bool.and_eq_true, decide_eq_true_eq] at hc
      omega
    · rw [Bool.eq_false_iff]
      intro h
      simp only [isCJK, isSpace, Bool.or_eq_true, Bool.and_eq_true, decide_eq_true_eq, beq_iff_eq] at hc h
      omega
    · intro h
      have := (by decide : ∀ c ∈ "０１２３４５６７８９".toList, isCJK c = false) c h
      rw [this] at hc
      cases hc
  have low : ∀ c ∈ capitals ++ smalls ++ [' '] ++ asciiPunctuation, c.toNat < 128 := by decide
  refine ⟨fun n hn => ⟨⟨fun c hc => ?_, fun c hc h => ?_, fun c hc h => ?_⟩, fun c hc => ?_, fun c hc h => ?_, fun c hc h => ?_⟩,
    fun n hn => ?_, fun n hn => ?_, fun n hn => ?_⟩
  · obtain ⟨h1, h2⟩ := hc
    have h2 : c ∈ capitals := h2
    rw [deals_number hn, numLetter c (by simp [h2])] at h1
    cases h1
  · exact (by decide : ∀ n ∈ wholeNames ++ decimalNames, ∀ c ∈ written n, c ∉ capitals) n hn c hc h
  · rw [deals_number hn, numLetter c (by simp [show c ∈ smalls from hc])] at h
    cases h
  · obtain ⟨h1, h2⟩ := hc
    obtain ⟨h3, _, h5⟩ := cjkLow c h2
    rw [deals_number hn, numeric_iff] at h1
    rcases h1 with h1 | h1 | h1
    · rw [h1] at h3
      exact absurd h3 (by decide)
    · exact hu.ideographs c (.inl h1) h2
    · exact h5 h1
  · have := (by decide : ∀ n ∈ wholeNames ++ decimalNames, ∀ c ∈ written n, c.toNat < 128) n hn c hc
    exact absurd (cjkLow c h).1 (by omega)
  · rw [deals_number hn, numLetter c (by simp [show c ∈ [' '] from hc])] at h
    cases h
  · have hn' : n ∈ wholeNames ++ decimalNames := by
      simp only [List.mem_cons, List.not_mem_nil, or_false] at hn
      rcases hn with rfl | rfl <;> decide
    refine ⟨fun c hc => ?_, fun c hc h => ?_, fun c hc h => ?_⟩
    · obtain ⟨h1, h2⟩ := hc
      have h2 : isSpace c = true := h2
      rw [deals_number hn', numeric_iff] at h1
      rcases h1 with h1 | h1 | h1
      · rw [h1] at h2; exact absurd h2 (by decide)
      · rw [hu.digits c h1] at h2; cases h2
      · rw [(by decide : ∀ c ∈ "０１２３４５６７８９".toList, isSpace c = false) c h1] at h2; cases h2
    · have h : isSpace c = true := h
      rw [(by decide : ∀ n ∈ ["IntToken", "FloatToken"], ∀ c ∈ written n, isSpace c = false) n hn c hc] at h
      cases h
    · rw [deals_number hn', numLetter c (by simp [show c ∈ [' '] from hc])] at h
      cases h
  · have pun : ∀ c ∈ capitals ++ smalls, ¬ (c ∈ asciiPunctuation ∨ u.isCatP c = true) := fun c hc h => by
      rcases h with h | h
      · exact (by decide : ∀ c ∈ capitals ++ smalls, c ∉ asciiPunctuation) c hc h
      · exact hu.letters c h hc
    have sp : ∀ c ∈ capitals ++ smalls, isSpace c = false := by decide
    have nb : ∀ c ∈ " ".toList, c ∉ capitals := by decide
    simp only [List.mem_cons, List.not_mem_nil, or_false] at hn
    rcases hn with rfl | rfl | rfl | rfl
    · refine ⟨fun c hc => ?_, fun c hc h => ?_, fun c hc h => nb c hc h⟩
      · have h1 : c ∈ capitals := hc.1
        have h2 : isSpace c = true := hc.2
        rw [sp c (by simp [h1])] at h2
        cases h2
      · have h2 : isSpace c = true := h
        rw [sp c (by simp [show c ∈ smalls from hc])] at h2
        cases h2
    · refine ⟨fun c hc => ?_, fun c hc h => ?_, fun c hc h => nb c hc h⟩
      · have := low c (by simp [show c ∈ capitals from hc.1])
        exact absurd (cjkLow c hc.2).1 (by omega)
      · have := low c (by simp [show c ∈ smalls from hc])
        exact absurd (cjkLow c h).1 (by omega)
    · exact ⟨fun c hc => pun c (by simp [show c ∈ capitals from hc.1]) hc.2,
        fun c hc h => pun c (by simp [show c ∈ smalls from hc]) h, fun c hc h => nb c hc h⟩
    · exact ⟨fun c hc => pun c (by simp [show c ∈ capitals from hc.1])
          (show (c ∈ asciiPunctuation ∨ u.isCatP c = true) ∧ c ≠ '.' from hc.2).1,
        fun c hc h => pun c (by simp [show c ∈ smalls from hc])
          (show (c ∈ asciiPunctuation ∨ u.isCatP c = true) ∧ c ≠ '.' from h).1, fun c hc h => nb c hc h⟩
  · have key : KeepApart u "AddWhitespaceAroundCJK" "AddWhitespaceAroundPunctuation" := by
      refine ⟨fun c hc => ?_, fun c hc h => ?_, fun c hc h => ?_⟩
      · rcases (show c ∈ asciiPunctuation ∨ u.isCatP c = true from hc.2) with h | h
        · have := low c (by simp [h])
          exact absurd (cjkLow c hc.1).1 (by omega)
        · exact hu.ideographs c (.inr h) hc.1
      · have e : c = ' ' := by simpa using (show c ∈ [' '] from hc)
        subst e
        rcases (show ' ' ∈ asciiPunctuation ∨ u.isCatP ' ' = true from h) with h | h
        · exact absurd h (by decide)
        · exact absurd (hu.spaces _ h) (by decide)
      · have := low c (List.mem_append_left _ (List.mem_append_right _ (show c ∈ [' '] from hc)))
        exact absurd (cjkLow c h).1 (by omega)
    simp only [List.mem_cons, List.not_mem_nil, or_false] at hn
    rcases hn with rfl | rfl
    · exact key
    · exact ⟨fun c hc => key.1 c ⟨hc.1, (show (c ∈ asciiPunctuation ∨ u.isCatP c = true) ∧ c ≠ '.' from hc.2).1⟩,
        fun c hc h => key.2.1 c hc (show (c ∈ asciiPunctuation ∨ u.isCatP c = true) ∧ c ≠ '.' from h).1, key.2.2⟩

/-- C113: without this the order matters: white space written next to white space, or a point that both steps look at. -/
theorem C113_needed : (∃ x y, Made exEnv "IntTokenWithSpace" x ∧ Made exEnv "MergeWhiteSpaceCharacters" y ∧
      ¬ Interchangeable [x, y] [y, x]) ∧
    ∃ x y, Made exEnv "IntToken" x ∧ Made exEnv "AddWhitespaceAroundPunctuation" y ∧ ¬ Interchangeable [x, y] [y, x] := by
  have differ : ∀ {x y : Op} {s m m' o o' : Str} {a b c d : Aligner}, x.transform (.str s) = .ok (.str m, a) →
      y.transform (.str m) = .ok (.str o, b) → y.transform (.str s) = .ok (.str m', c) →
      x.transform (.str m') = .ok (.str o', d) → o ≠ o' → ¬ Interchangeable [x, y] [y, x] := by
    intro x y s m m' o o' a b c d h1 h2 h3 h4 hne h
    have := h (.str s)
    rw [run_two h1 h2, run_two h3 h4] at this
    cases this
    exact hne rfl
  refine ⟨⟨_, _, ⟨[], [], rfl⟩, ⟨[], [], rfl⟩, ?_⟩, _, _, ⟨[], [], rfl⟩, ⟨[], [], rfl⟩, ?_⟩
  · exact differ (s := "a 1".toList) (o := "a _int_ ".toList) (o' := "a  _int_ ".toList) rfl rfl rfl rfl (by decide)
  · exact differ (s := "1.5".toList) (o := "1 . 5".toList) (o' := "_int_ . _int_".toList) rfl rfl rfl rfl (by decide)

theorem asciiUnicode_usual : UsualClasses asciiUnicode where
  digits c h := by
    have hb : 48 ≤ c.toNat ∧ c.toNat ≤ 57 := by
      simpa [asciiUnicode] using h
    rw [Bool.eq_false_iff]
    intro hs
    simp only [isSpace, Bool.or_eq_true, Bool.and_eq_true, decide_eq_true_eq, beq_iff_eq] at hs
    omega
  ideographs c h := by
    have hb : 48 ≤ c.toNat ∧ c.toNat ≤ 57 := by
      rcases h with h | h
      · simpa [asciiUnicode] using h
      · cases h
    intro hs
    have hc : isCJK c = true := (C17_cjk c).mpr hs
    simp only [isCJK, Bool.or_eq_true, Bool.and_eq_true, decide_eq_true_eq] at hc
    omega
  letters c h := by cases h
  spaces c h := by cases h

/-- A pipe with the hypotheses of `C113_order`: small letters, integers, decimals. -/
example : ∃ l i f, Made exEnv "Lowercase" l ∧ Made exEnv "IntToken" i ∧ Made exEnv "FloatToken" f ∧
    Interchangeable [l, i, f] [f, i, l] := by
  have hl : ∃ l, Made exEnv "Lowercase" l := ⟨_, [], [], rfl⟩
  have hi : ∃ l, Made exEnv "IntToken" l := ⟨_, [], [], rfl⟩
  have hf : ∃ l, Made exEnv "FloatToken" l := ⟨_, [], [], rfl⟩
  obtain ⟨l, hl⟩ := hl
  obtain ⟨i, hi⟩ := hi
  obtain ⟨f, hf⟩ := hf
  have hp := (C113_pairs exEnv.u asciiUnicode_digits asciiUnicode_usual).1
  refine ⟨l, i, f, hl, hi, hf, ?_⟩
  refine C113_order exEnv asciiUnicode_digits [l, i, f] [f, i, l] [] [] ?_ ((List.reverse_perm [f, i, l]))
  have h1 : StepsApart exEnv i l := ⟨_, _, hi, hl, .inl ⟨by decide, by decide, (hp "IntToken" (by decide)).1⟩⟩
  have h2 : StepsApart exEnv f l := ⟨_, _, hf, hl, .inl ⟨by decide, by decide, (hp "FloatToken" (by decide)).1⟩⟩
  have h3 : StepsApart exEnv i f := ⟨_, _, hi, hf, .inr (.inl ⟨by decide, by decide⟩)⟩
  simp [stepsApart_symm h1, stepsApart_symm h2, h3]

end Uttut
