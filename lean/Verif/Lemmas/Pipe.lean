import Verif.Lemmas.Dict
import Verif.Lemmas.Sort
import Verif.Spec.Pipe

/-! Lemmas on pipes. -/

namespace Uttut

theorem finalOf_cons (s t : Seq) (a : Aligner) (rs : List (Seq × Aligner)) :
    finalOf s ((t, a) :: rs) = finalOf t rs := by
  unfold finalOf
  cases rs with
  | nil => rfl
  | cons r rs => rw [List.getLast?_cons_cons]; simp [List.getLast?_cons]

theorem finalOf_append (s : Seq) (rs qs : List (Seq × Aligner)) :
    finalOf s (rs ++ qs) = finalOf (finalOf s rs) qs := by
  induction rs generalizing s with
  | nil => rfl
  | cons r rs ih =>
    obtain ⟨t, a⟩ := r
    rw [List.cons_append, finalOf_cons, finalOf_cons, ih]

theorem Runs.length {ops : List Op} {s : Seq} {rs : List (Seq × Aligner)} (h : Runs ops s rs) :
    rs.length = ops.length := by
  induction h with
  | nil => rfl
  | cons _ _ ih => simp [ih]

theorem Runs.det {ops : List Op} {s : Seq} {rs qs : List (Seq × Aligner)} (h : Runs ops s rs)
    (h' : Runs ops s qs) : rs = qs := by
  induction h generalizing qs with
  | nil => cases h'; rfl
  | cons h1 _ ih =>
    cases h' with
    | cons g1 g2 =>
      rw [h1] at g1
      injection g1 with g1
      injection g1 with ht ha
      subst ht; subst ha
      rw [ih g2]

theorem Runs.append {ops ops' : List Op} {s : Seq} {rs qs : List (Seq × Aligner)} (h : Runs ops s rs)
    (h' : Runs ops' (finalOf s rs) qs) : Runs (ops ++ ops') s (rs ++ qs) := by
  induction h with
  | nil => exact h'
  | cons h1 _ ih =>
    rw [finalOf_cons] at h'
    exact Runs.cons h1 (ih h')

theorem Runs.split {ops ops' : List Op} {s : Seq} {rs : List (Seq × Aligner)} (h : Runs (ops ++ ops') s rs) :
    ∃ qs qs', rs = qs ++ qs' ∧ Runs ops s qs ∧ Runs ops' (finalOf s qs) qs' := by
  induction ops generalizing s rs with
  | nil => exact ⟨[], rs, rfl, Runs.nil s, h⟩
  | cons op ops ih =>
    cases h with
    | cons h1 h2 =>
      obtain ⟨qs, qs', he, ha, hb⟩ := ih h2
      exact ⟨_ :: qs, qs', by rw [he]; rfl, Runs.cons h1 ha, by rw [finalOf_cons]; exact hb⟩

theorem runSteps_ok (ops : List Op) (s : Seq) (as : List Aligner) (coll : List Seq)
    (o : Seq) (as' : List Aligner) (coll' : List Seq) :
    Pipe.runSteps ops s as coll = .ok (o, as', coll') ↔
      ∃ rs, Runs ops s rs ∧ o = finalOf s rs ∧ as' = as ++ rs.map Prod.snd ∧ coll' = coll ++ rs.map Prod.fst := by
  induction ops generalizing s as coll with
  | nil =>
    unfold Pipe.runSteps
    constructor
    · intro h
      injection h with h
      injection h with h1 h
      injection h with h2 h3
      exact ⟨[], Runs.nil s, h1.symm, by simp [h2], by simp [h3]⟩
    · rintro ⟨rs, h, rfl, rfl, rfl⟩
      cases h
      simp [finalOf]
  | cons op ops ih =>
    unfold Pipe.runSteps
    cases ht : op.transform s with
    | error e =>
      constructor
      · intro h; cases h
      · rintro ⟨rs, h, _⟩
        cases h with
        | cons h1 _ => rw [ht] at h1; cases h1
    | ok r =>
      obtain ⟨t, a⟩ := r
      show Pipe.runSteps ops t (as ++ [a]) (coll ++ [t]) = _ ↔ _
      rw [ih]
      constructor
      · rintro ⟨rs, h, h1, h2, h3⟩
        exact ⟨(t, a) :: rs, Runs.cons ht h, by rw [finalOf_cons]; exact h1, by simp [h2], by simp [h3]⟩
      · rintro ⟨rs, h, h1, h2, h3⟩
        cases h with
        | cons g1 g2 =>
          rw [ht] at g1
          injection g1 with g1
          injection g1 with e1 e2
          subst e1; subst e2
          exact ⟨_, g2, by rw [finalOf_cons] at h1; exact h1, by simp [h2], by simp [h3]⟩

theorem runSteps_error (ops : List Op) (s : Seq) (as : List Aligner) (coll : List Seq) (e : Exc) :
    Pipe.runSteps ops s as coll = .error e ↔
      ∃ pre op post rs, ops = pre ++ op :: post ∧ Runs pre s rs ∧ op.transform (finalOf s rs) = .error e := by
  induction ops generalizing s as coll with
  | nil =>
    unfold Pipe.runSteps
    constructor
    · intro h; cases h
    · rintro ⟨pre, op, post, rs, h, _⟩
      simp at h
  | cons op ops ih =>
    unfold Pipe.runSteps
    cases ht : op.transform s with
    | error e' =>
      constructor
      · intro h
        have h : (Except.error e' : Res (Seq × List Aligner × List Seq)) = .error e := h
        injection h with h
        subst h
        exact ⟨[], op, ops, [], rfl, Runs.nil s, ht⟩
      · rintro ⟨pre, op', post, rs, h, hr, he⟩
        cases pre with
        | nil =>
          cases hr
          injection h with h1 h2
          subst h1
          have he : op.transform s = .error e := he
          rw [ht] at he
          injection he with he
          subst he
          rfl
        | cons q pre =>
          injection h with h1 h2
          subst h1
          cases hr with
          | cons g1 _ => rw [ht] at g1; cases g1
    | ok r =>
      obtain ⟨t, a⟩ := r
      show Pipe.runSteps ops t (as ++ [a]) (coll ++ [t]) = _ ↔ _
      rw [ih]
      constructor
      · rintro ⟨pre, op', post, rs, h, hr, he⟩
        exact ⟨op :: pre, op', post, (t, a) :: rs, by rw [h]; rfl, Runs.cons ht hr, by rw [finalOf_cons]; exact he⟩
      · rintro ⟨pre, op', post, rs, h, hr, he⟩
        cases pre with
        | nil =>
          cases hr
          injection h with h1 h2
          subst h1
          have he : op.transform s = .error e := he
          rw [ht] at he
          cases he
        | cons q pre =>
          injection h with h1 h2
          subst h1
          cases hr with
          | cons g1 g2 =>
            rw [ht] at g1
            injection g1 with g1
            injection g1 with e1 e2
            subst e1; subst e2
            rw [finalOf_cons] at he
            exact ⟨pre, op', post, _, h2, g2, he⟩

/-- `transform_sequence` in terms of `Runs`. -/
theorem transformSequence_ok (p : Pipe) (s o : Seq) (as : List Aligner) (coll : List Seq) :
    p.transformSequence s = .ok (o, as, coll) ↔
      ∃ rs, Runs p.steps s rs ∧ o = finalOf s rs ∧ as = rs.map Prod.snd ∧ coll = s :: rs.map Prod.fst := by
  unfold Pipe.transformSequence
  rw [runSteps_ok]
  simp

/-! ### Types -/

theorem Op.transform_type {op : Op} {s t : Seq} {a : Aligner} (h : op.transform s = .ok (t, a)) :
    s.type = op.cls.inputType ∧ t.type = op.cls.outputType := by
  unfold Op.transform at h
  split at h
  · cases h
  · next h1 =>
    have h1 : s.type = op.cls.inputType := Decidable.of_not_not h1
    cases hr : op.run s with
    | error e => rw [hr] at h; cases h
    | ok r =>
      obtain ⟨o, b⟩ := r
      rw [hr] at h
      simp only [Except.bind_ok] at h
      split at h
      · cases h
      · next h2 =>
        have h2 : o.type = op.cls.outputType := Decidable.of_not_not h2
        injection h with h
        injection h with h3 _
        subst h3
        exact ⟨h1, h2⟩

theorem wellTyped_nil : WellTyped [] := by intro i a b h; simp at h

theorem wellTyped_single (op : Op) : WellTyped [op] := by
  intro i a b h1 h2
  simp at h2

theorem WellTyped.append {xs ys : List Op} (hx : WellTyped xs) (hy : WellTyped ys)
    (h : ∀ a b, xs.getLast? = some a → ys.head? = some b → a.cls.outputType = b.cls.inputType) :
    WellTyped (xs ++ ys) := by
  intro i a b h1 h2
  by_cases hi : i + 1 < xs.length
  · rw [List.getElem?_append_left (by omega)] at h1
    rw [List.getElem?_append_left hi] at h2
    exact hx i a b h1 h2
  · by_cases hi2 : i + 1 = xs.length
    · rw [List.getElem?_append_left (by omega)] at h1
      rw [List.getElem?_append_right (by omega)] at h2
      refine h a b ?_ ?_
      · rw [List.getLast?_eq_getElem?, ← h1]; congr 1; omega
      · rw [List.head?_eq_getElem?, ← h2]; congr 1; omega
    · rw [List.getElem?_append_right (by omega)] at h1 h2
      exact hy (i - xs.length) a b h1 (by rw [← h2]; congr 1; omega)

theorem WellTyped.drop {xs : List Op} (hx : WellTyped xs) (n : Nat) : WellTyped (xs.drop n) := by
  intro i a b h1 h2
  rw [List.getElem?_drop] at h1 h2
  exact hx (n + i) a b h1 h2

theorem WellTyped.take {xs : List Op} (hx : WellTyped xs) (n : Nat) : WellTyped (xs.take n) := by
  intro i a b h1 h2
  rw [List.getElem?_take] at h1 h2
  split at h1
  · split at h2
    · exact hx i a b h1 h2
    · cases h2
  · cases h1

/-! ### Changing calls -/

theorem push_wellTyped (p : Pipe) (op : Op) (ck : Option Str) (h : WellTyped p.steps)
    (hl : ∀ a, p.steps.getLast? = some a → a.cls.outputType = op.cls.inputType) :
    WellTyped (p.push op ck).1.steps := by
  have : (p.push op ck).1.steps = p.steps ++ [op] := by
    unfold Pipe.push
    cases ck with
    | none => rfl
    | some name =>
      dsimp only
      cases dictGet p.checkpoints name <;> rfl
  rw [this]
  refine h.append (wellTyped_single op) ?_
  intro a b ha hb
  injection hb with hb
  subst hb
  exact hl a ha

theorem addOp_wellTyped (p : Pipe) (op : Op) (ck : Option Str) (h : WellTyped p.steps) :
    WellTyped (p.addOp op ck).1.steps := by
  unfold Pipe.addOp
  cases hl : p.steps.getLast? with
  | none => exact push_wellTyped p op ck h (by rw [hl]; intro a ha; cases ha)
  | some last =>
    dsimp only
    split
    · exact h
    · next hne =>
      refine push_wellTyped p op ck h ?_
      rw [hl]
      intro a ha
      injection ha with ha
      subst ha
      exact (Decidable.of_not_not hne).symm

theorem add_wellTyped (p : Pipe) (f : Factory) (name : Str) (kw : Option (List (Str × PyVal)))
    (ck : Option Str) (h : WellTyped p.steps) : WellTyped (p.add f name kw ck).1.steps := by
  unfold Pipe.add
  split
  · exact h
  · exact addOp_wellTyped p _ ck h

/-- The three outcomes of `+=` that return normally or not. -/
theorem iadd_cases (p q : Pipe) :
    ((p.iadd q).1 = p ∧ ∃ e, (p.iadd q).2 = .error e) ∨
    (∃ a b, p.steps.getLast? = some a ∧ q.steps.head? = some b ∧ a.cls.outputType = b.cls.inputType ∧
      p.sharesName q = false ∧
      p.iadd q = (⟨p.steps ++ q.steps, dictUpdate p.checkpoints
        (q.checkpoints.map fun kv => (kv.1, kv.2 + ((p.steps ++ q.steps).length : Int)))⟩, .ok ())) := by
  unfold Pipe.iadd Pipe.outputType Pipe.inputType
  cases hl : p.steps.getLast? with
  | none => exact Or.inl ⟨rfl, _, rfl⟩
  | some a =>
    cases hh : q.steps.head? with
    | none => exact Or.inl ⟨rfl, _, rfl⟩
    | some b =>
      dsimp only
      by_cases ht : a.cls.outputType = b.cls.inputType
      · rw [if_neg (by simp [ht])]
        cases hs : p.sharesName q with
        | true => exact Or.inl ⟨rfl, _, rfl⟩
        | false => exact Or.inr ⟨a, b, rfl, rfl, ht, rfl, rfl⟩
      · rw [if_pos ht]
        exact Or.inl ⟨rfl, _, rfl⟩

theorem iadd_wellTyped (p q : Pipe) (h : WellTyped p.steps) (hq : WellTyped q.steps) :
    WellTyped (p.iadd q).1.steps := by
  rcases iadd_cases p q with ⟨h1, _⟩ | ⟨a, b, ha, hb, ht, _, h1⟩
  · rw [h1]; exact h
  · rw [h1]
    refine h.append hq ?_
    intro a' b' ha' hb'
    rw [ha] at ha'
    rw [hb] at hb'
    injection ha' with ha'
    injection hb' with hb'
    subst ha'; subst hb'
    exact ht

theorem concat_ok {p q r : Pipe} (h : p.concat q = .ok r) :
    p.sharesName q = false ∧ p.iadd q = (r, .ok ()) ∧ r.steps = p.steps ++ q.steps ∧
    r.checkpoints = dictUpdate p.checkpoints
        (q.checkpoints.map fun kv => (kv.1, kv.2 + ((p.steps ++ q.steps).length : Int))) := by
  unfold Pipe.concat at h
  rcases iadd_cases p q with ⟨h1, e, he⟩ | ⟨a, b, ha, hb, ht, hs, h1⟩
  · split at h
    · next heq => rw [heq] at he; cases he
    · cases h
  · rw [h1] at h
    injection h with h
    subst h
    exact ⟨hs, h1, rfl, rfl⟩

theorem restoreSteps_wellTyped (f : Factory) (infos : List PyVal) (p q : Pipe) (h : WellTyped p.steps)
    (hr : Pipe.restoreSteps f infos p = .ok q) : WellTyped q.steps := by
  induction infos generalizing p with
  | nil =>
    unfold Pipe.restoreSteps at hr
    injection hr with hr
    subst hr
    exact h
  | cons i infos ih =>
    unfold Pipe.restoreSteps at hr
    cases hop : Pipe.restoreStep f i with
    | error e => rw [hop] at hr; cases hr
    | ok op =>
      rw [hop] at hr
      simp only [Except.bind_ok] at hr
      have hw := addOp_wellTyped p op none h
      split at hr
      · next p' _ heq =>
        rw [heq] at hw
        exact ih p' hw hr
      · cases hr

theorem deserialize_wellTyped (f : Factory) (text : Str) (p : Pipe) (h : Pipe.deserialize f text = .ok p) :
    WellTyped p.steps := by
  unfold Pipe.deserialize at h
  cases h1 : Json.loads text with
  | error e => rw [h1] at h; cases h
  | ok b =>
    rw [h1] at h
    simp only [Except.bind_ok] at h
    cases h2 : b.getItem "steps".toList with
    | error e => rw [h2] at h; cases h
    | ok st =>
      rw [h2] at h
      simp only [Except.bind_ok] at h
      cases h3 : Pipe.iterate st with
      | error e => rw [h3] at h; cases h
      | ok infos =>
        rw [h3] at h
        simp only [Except.bind_ok] at h
        cases h4 : Pipe.restoreSteps f infos Pipe.empty with
        | error e => rw [h4] at h; cases h
        | ok q =>
          rw [h4] at h
          simp only [Except.bind_ok] at h
          have := restoreSteps_wellTyped f infos Pipe.empty q wellTyped_nil h4
          cases h5 : b.getItem "checkpoints".toList with
          | error e => rw [h5] at h; cases h
          | ok ck =>
            rw [h5] at h
            simp only [Except.bind_ok] at h
            cases h6 : Pipe.checkpointsOf ck with
            | error e => rw [h6] at h; cases h
            | ok cks =>
              rw [h6] at h
              simp only [Except.bind_ok] at h
              injection h with h
              subst h
              exact this

/-! ### Slices -/

theorem range_filterMap {α : Type} (l : List α) (a c : Nat) :
    ((List.range c).map fun k => a + k).filterMap (fun i => l[i]?) = (l.drop a).take c := by
  induction c with
  | zero => simp
  | succ c ih =>
    rw [List.range_succ, List.map_append, List.filterMap_append, ih, List.take_add_one, List.getElem?_drop]
    simp only [List.map_cons, List.map_nil, List.filterMap_cons, List.filterMap_nil]
    cases l[a + c]? <;> rfl

/-- A slice with step 1 is `l[a:b]` for the clamped bounds. -/
theorem sliceStep_one {α : Type} (l : List α) (start stop step : Option Int) (h : step = none ∨ step = some 1) :
    ∃ a b : Nat, sliceStep l start stop step = .ok (slice l a b) ∧
      (a : Int) = sliceBound (clampUp l.length) 0 start ∧
      (b : Int) = sliceBound (clampUp l.length) l.length stop := by
  have hpos : ∀ i : Int, 0 ≤ clampUp l.length i := by
    intro i; unfold clampUp; split <;> omega
  have ha : 0 ≤ sliceBound (clampUp l.length) 0 start := by
    cases start <;> simp [sliceBound, hpos]
  have hb : 0 ≤ sliceBound (clampUp l.length) l.length stop := by
    cases stop <;> simp [sliceBound, hpos]
  obtain ⟨a, hA⟩ := Int.eq_ofNat_of_zero_le ha
  obtain ⟨b, hB⟩ := Int.eq_ofNat_of_zero_le hb
  refine ⟨a, b, ?_, hA.symm, hB.symm⟩
  have hs : sliceStep l start stop step =
      .ok ((sliceIndices l.length start stop 1).filterMap fun i => l[i]?) := by
    rcases h with h | h <;> subst h <;> rfl
  rw [hs]
  congr 1
  unfold sliceIndices
  rw [if_pos (by decide)]
  dsimp only
  rw [hA, hB]
  have : (fun k : Nat => ((a : Int) + (k : Int) * 1).toNat) = fun k => a + k := by
    funext k; omega
  rw [this, range_filterMap]
  unfold slice
  rw [List.drop_take]
  congr 1
  split <;> omega

theorem sliceCheckpoints_some (a : Int) (cks : List (Str × Int)) :
    Pipe.sliceCheckpoints (some a) cks =
      .ok ((cks.filter fun kv => kv.2 > a).map fun kv => (kv.1, kv.2 - a)) := by
  induction cks with
  | nil => rfl
  | cons kv cks ih =>
    obtain ⟨n, i⟩ := kv
    unfold Pipe.sliceCheckpoints
    dsimp only
    rw [ih]
    simp only [Except.bind_ok, List.filter_cons]
    by_cases h : i > a
    · simp [h]; rfl
    · simp [h]; rfl

theorem getSlice_ok {p r : Pipe} {start stop step : Option Int} (h : p.getSlice start stop step = .ok r) :
    sliceStep p.steps start stop step = .ok r.steps ∧
      Pipe.sliceCheckpoints start p.checkpoints = .ok r.checkpoints := by
  unfold Pipe.getSlice at h
  cases h1 : sliceStep p.steps start stop step with
  | error e => rw [h1] at h; cases h
  | ok st =>
    rw [h1] at h
    simp only [Except.bind_ok] at h
    cases h2 : Pipe.sliceCheckpoints start p.checkpoints with
    | error e => rw [h2] at h; cases h
    | ok ck =>
      rw [h2] at h
      simp only [Except.bind_ok] at h
      injection h with h
      subst h
      exact ⟨rfl, rfl⟩

theorem getSlice_wellTyped (p r : Pipe) (start stop step : Option Int) (h : WellTyped p.steps)
    (hs : step = none ∨ step = some 1) (hr : p.getSlice start stop step = .ok r) : WellTyped r.steps := by
  obtain ⟨h1, _⟩ := getSlice_ok hr
  obtain ⟨a, b, h2, _⟩ := sliceStep_one p.steps start stop step hs
  rw [h1] at h2
  injection h2 with h2
  rw [h2]
  exact (h.take b).drop a

/-! ### Checkpoints -/

theorem dictGet_dictUpdate {κ ν : Type} [DecidableEq κ] (d e : List (κ × ν)) (k : κ)
    (h : k ∉ e.map Prod.fst) : dictGet (dictUpdate d e) k = dictGet d k := by
  unfold dictUpdate
  induction e generalizing d with
  | nil => rfl
  | cons p e ih =>
    obtain ⟨k', v'⟩ := p
    simp only [List.map_cons, List.mem_cons, not_or] at h
    rw [List.foldl_cons, ih _ h.2, dictGet_dictSet, if_neg (fun e => h.1 e.symm)]

theorem dictGet_dictUpdate_mem {κ ν : Type} [DecidableEq κ] (d e : List (κ × ν)) (k : κ) (v : ν)
    (hn : (e.map Prod.fst).Nodup) (h : (k, v) ∈ e) : dictGet (dictUpdate d e) k = some v := by
  unfold dictUpdate
  induction e generalizing d with
  | nil => cases h
  | cons p e ih =>
    obtain ⟨k', v'⟩ := p
    simp only [List.map_cons, List.nodup_cons] at hn
    rw [List.foldl_cons]
    rcases List.mem_cons.mp h with h | h
    · injection h with h1 h2
      subst h1; subst h2
      have := dictGet_dictUpdate (dictSet d k v) e k hn.1
      unfold dictUpdate at this
      rw [this, dictGet_dictSet, if_pos rfl]
    · exact ih _ hn.2 h

theorem sharesName_false {p q : Pipe} (h : p.sharesName q = false) (name : Str)
    (hp : name ∈ p.checkpoints.map Prod.fst) : name ∉ q.checkpoints.map Prod.fst := by
  unfold Pipe.sharesName at h
  rw [List.any_eq_false] at h
  obtain ⟨kv, hm, rfl⟩ := List.mem_map.mp hp
  have := h kv hm
  intro hq
  rw [← Decidable.not_not (p := kv.1 ∈ q.checkpoints.map Prod.fst), ← dictGet_none] at hq
  cases hg : dictGet q.checkpoints kv.1 with
  | none => exact hq hg
  | some v => rw [hg] at this; exact this rfl

/-- A pipe that grew: the old steps are a prefix, the old checkpoints resolve as before. -/
structure Grows (p q : Pipe) : Prop where
  steps : p.steps <+: q.steps
  checkpoints : ∀ (name : Str) (i : Int), dictGet p.checkpoints name = some i →
    dictGet q.checkpoints name = some i

theorem Grows.refl (p : Pipe) : Grows p p := ⟨List.prefix_refl _, fun _ _ h => h⟩

theorem Grows.trans {p q r : Pipe} (h : Grows p q) (h' : Grows q r) : Grows p r :=
  ⟨h.steps.trans h'.steps, fun n i hi => h'.checkpoints n i (h.checkpoints n i hi)⟩

theorem push_grows (p : Pipe) (op : Op) (ck : Option Str) : Grows p (p.push op ck).1 := by
  unfold Pipe.push
  cases ck with
  | none => exact ⟨List.prefix_append _ _, fun _ _ h => h⟩
  | some name =>
    dsimp only
    cases hg : dictGet p.checkpoints name with
    | some v => exact ⟨List.prefix_append _ _, fun _ _ h => h⟩
    | none =>
      refine ⟨List.prefix_append _ _, fun n i h => ?_⟩
      show dictGet (dictSet p.checkpoints name _) n = _
      rw [dictGet_dictSet, if_neg]
      · exact h
      · rintro rfl
        rw [hg] at h
        cases h

theorem addOp_grows (p : Pipe) (op : Op) (ck : Option Str) : Grows p (p.addOp op ck).1 := by
  unfold Pipe.addOp
  cases p.steps.getLast? with
  | none => exact push_grows p op ck
  | some last =>
    dsimp only
    split
    · exact Grows.refl p
    · exact push_grows p op ck

theorem add_grows (p : Pipe) (f : Factory) (name : Str) (kw : Option (List (Str × PyVal)))
    (ck : Option Str) : Grows p (p.add f name kw ck).1 := by
  unfold Pipe.add
  split
  · exact Grows.refl p
  · exact addOp_grows p _ ck

theorem iadd_grows (p q : Pipe) : Grows p (p.iadd q).1 := by
  rcases iadd_cases p q with ⟨h1, _⟩ | ⟨a, b, ha, hb, ht, hs, h1⟩
  · rw [h1]; exact Grows.refl p
  · rw [h1]
    refine ⟨List.prefix_append _ _, fun n i h => ?_⟩
    show dictGet (dictUpdate _ _) n = _
    rw [dictGet_dictUpdate, h]
    rw [List.map_map]
    have hm : n ∈ p.checkpoints.map Prod.fst :=
      List.mem_map_of_mem (f := Prod.fst) (dictGet_mem _ _ _ h)
    exact sharesName_false hs n hm

theorem after_grows (p : Pipe) (c : PipeCall) : Grows p (c.after p) := by
  cases c with
  | addOp op ck => exact addOp_grows p op ck
  | add f name kw ck => exact add_grows p f name kw ck
  | iadd q => exact iadd_grows p q

theorem afterCalls_grows (p : Pipe) (cs : List PipeCall) : Grows p (afterCalls p cs) := by
  induction cs generalizing p with
  | nil => exact Grows.refl p
  | cons c cs ih => exact (after_grows p c).trans (ih _)

/-- Outcome of a successful `add_op` with a checkpoint name. -/
theorem addOp_named {p p' : Pipe} {op : Op} {name : Str} (h : p.addOp op (some name) = (p', .ok ())) :
    p'.steps = p.steps ++ [op] ∧ dictGet p.checkpoints name = none ∧
      p'.checkpoints = dictSet p.checkpoints name ((p.steps.length : Int) + 1) := by
  have hp : p.push op (some name) = (p', .ok ()) := by
    unfold Pipe.addOp at h
    cases hl : p.steps.getLast? with
    | none => rw [hl] at h; exact h
    | some last =>
      rw [hl] at h
      dsimp only at h
      split at h
      · injection h with _ h; cases h
      · exact h
  unfold Pipe.push at hp
  dsimp only at hp
  cases hg : dictGet p.checkpoints name with
  | some v => rw [hg] at hp; injection hp with _ hp; cases hp
  | none =>
    rw [hg] at hp
    injection hp with hp _
    subst hp
    refine ⟨rfl, rfl, ?_⟩
    simp

theorem pyIndex_nat (n i : Nat) : pyIndex? n (i : Int) = if i < n then some i else none := by
  unfold pyIndex?
  rw [if_pos (by omega)]
  simp

/-- Reading a collection through a checkpoint that is a natural number. -/
theorem getFromCheckpoint_nat (cks : List (Str × Int)) (coll : List Seq) (name : Str) (i : Nat)
    (h : dictGet cks name = some (i : Int)) :
    getFromCheckpoint cks coll name =
      (match coll[i]? with | some s => .ok s | none => .error .indexError) := by
  unfold getFromCheckpoint
  rw [h]
  dsimp only
  rw [pyIndex_nat]
  by_cases hlt : i < coll.length
  · rw [if_pos hlt]; rfl
  · rw [if_neg hlt, List.getElem?_eq_none (by omega)]
    rfl

/-- The value after the first `n` steps is the `n`-th collected intermediate. -/
theorem finalOf_take (s : Seq) (rs : List (Seq × Aligner)) (n : Nat) (h : n ≤ rs.length) :
    (s :: rs.map Prod.fst)[n]? = some (finalOf s (rs.take n)) := by
  induction rs generalizing s n with
  | nil =>
    have : n = 0 := by simpa using h
    subst this
    rfl
  | cons r rs ih =>
    obtain ⟨t, a⟩ := r
    cases n with
    | zero => rfl
    | succ n =>
      rw [List.take_succ_cons, finalOf_cons, List.getElem?_cons_succ, List.map_cons]
      exact ih t n (by simpa using h)

end Uttut
