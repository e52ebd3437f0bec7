import Verif.Lemmas.Ops
import Verif.Lemmas.Runs

/-! The search-and-replace loop of the pattern recognisers. -/

namespace Uttut

open Spec Piece

/-! ### scans -/

theorem Spec.Scan.det {m : Matcher} {s : Str} {pos : Nat} {ms ms' : List (Nat × Nat)}
    (h : Scan m s pos ms) (h' : Scan m s pos ms') : ms = ms' := by
  induction h generalizing ms' with
  | atEnd pos hp =>
    cases h' with
    | atEnd => rfl
    | noMatch => rfl
    | match_ _ _ _ _ h1 => omega
  | noMatch pos hp hm =>
    cases h' with
    | atEnd => rfl
    | noMatch => rfl
    | match_ _ _ _ _ _ h2 => rw [hm] at h2; cases h2
  | match_ pos a b ms hp hm _ ih =>
    cases h' with
    | atEnd _ h1 => omega
    | noMatch _ _ h2 => rw [hm] at h2; cases h2
    | match_ _ a' b' ms' _ h2 h3 =>
      rw [hm] at h2
      injection h2 with h2
      injection h2 with e1 e2
      subst e1; subst e2
      rw [ih h3]

theorem Spec.Scan.length_le {m : Matcher} {s : Str} (hs : SoundMatcher m s) {pos : Nat}
    {ms : List (Nat × Nat)} (h : Scan m s pos ms) : ms.length ≤ s.length - pos := by
  induction h with
  | atEnd => simp
  | noMatch => simp
  | match_ pos a b ms hp hm ht ih =>
    obtain ⟨h1, h2, h3⟩ := hs pos a b (Nat.le_of_lt hp) hm
    have : b ≠ pos := by
      rintro rfl
      have := ht.det (Scan.match_ b a b ms hp hm ht)
      have := congrArg List.length this
      simp at this
    simp only [List.length_cons]
    omega

/-- The matches of a scan are in order and inside the text. -/
theorem Spec.Scan.fits {m : Matcher} {s : Str} (hs : SoundMatcher m s) {pos : Nat} {ms : List (Nat × Nat)}
    (hpos : pos ≤ s.length) (h : Scan m s pos ms) (v : Str) :
    Fits s.length pos (ms.map fun x => (⟨x.1, x.2, v⟩ : Rep Str)) := by
  induction h with
  | atEnd => exact hpos
  | noMatch => exact hpos
  | match_ pos a b ms hp hm _ ih =>
    obtain ⟨h1, h2, h3⟩ := hs pos a b hpos hm
    exact ⟨h1, h2, ih h3⟩

theorem Spec.Scan.wf {m : Matcher} {s : Str} (hs : SoundMatcher m s) {pos : Nat} {ms : List (Nat × Nat)}
    (hpos : pos ≤ s.length) (h : Scan m s pos ms) : ∀ x ∈ ms, x.1 ≤ x.2 := by
  induction h with
  | atEnd => simp
  | noMatch => simp
  | match_ pos a b ms hp hm _ ih =>
    obtain ⟨h1, h2, h3⟩ := hs pos a b hpos hm
    intro x hx
    rcases List.mem_cons.mp hx with rfl | hx
    · exact h2
    · exact ih h3 x hx

/-- A finished loop has recorded the matches of the scan. -/
theorem searchLoop_of_scan {m : Matcher} {s : Str} {pos : Nat} {ms : List (Nat × Nat)}
    (nv : Str → Nat → Nat → Str) (h : Scan m s pos ms) (hwf : ∀ x ∈ ms, x.1 ≤ x.2) (fuel : Nat)
    (hf : ms.length + 1 ≤ fuel) (g : ReplacementGroup Str) :
    searchLoop m nv s fuel pos g =
      some ⟨g.reps ++ ms.map (fun x => ⟨x.1, x.2, nv s x.1 x.2⟩), g.isDone⟩ := by
  induction h generalizing fuel g with
  | atEnd pos hp =>
    cases fuel with
    | zero => simp at hf
    | succ fuel => simp only [searchLoop]; rw [if_neg (by omega)]; simp
  | noMatch pos hp hm =>
    cases fuel with
    | zero => simp at hf
    | succ fuel => simp only [searchLoop]; rw [if_pos hp, hm]; simp
  | match_ pos a b ms hp hm _ ih =>
    cases fuel with
    | zero => simp at hf
    | succ fuel =>
      simp only [searchLoop]
      rw [if_pos hp, hm]
      dsimp only
      rw [ih (fun x hx => hwf x (by simp [hx])) fuel (by simp at hf; omega),
        ReplacementGroup.add_of_le g (hwf (a, b) (by simp))]
      simp

/-- A loop that finishes has followed a scan. -/
theorem scan_of_searchLoop {m : Matcher} {s : Str} (nv : Str → Nat → Nat → Str) (fuel pos : Nat)
    (g g' : ReplacementGroup Str) (h : searchLoop m nv s fuel pos g = some g') : ∃ ms, Scan m s pos ms := by
  induction fuel generalizing pos g with
  | zero => simp [searchLoop] at h
  | succ fuel ih =>
    simp only [searchLoop] at h
    by_cases hp : pos < s.length
    · rw [if_pos hp] at h
      cases hm : m s pos with
      | none => exact ⟨[], .noMatch pos hp hm⟩
      | some ab =>
        obtain ⟨a, b⟩ := ab
        rw [hm] at h
        obtain ⟨ms, hms⟩ := ih _ _ h
        exact ⟨_, .match_ pos a b ms hp hm hms⟩
    · exact ⟨[], .atEnd pos (by omega)⟩

/-- The scan starting at a position without `stuck` successors exists. -/
theorem scan_exists {m : Matcher} {s : Str} (hs : SoundMatcher m s)
    (h : ∀ p, Reached m s p → p < s.length → m s p ≠ some (p, p)) (n pos : Nat) (hn : s.length - pos ≤ n)
    (hpos : pos ≤ s.length) (hr : Reached m s pos) : ∃ ms, Scan m s pos ms := by
  induction n generalizing pos with
  | zero => exact ⟨[], .atEnd pos (by omega)⟩
  | succ n ih =>
    by_cases hp : pos < s.length
    · cases hm : m s pos with
      | none => exact ⟨[], .noMatch pos hp hm⟩
      | some ab =>
        obtain ⟨a, b⟩ := ab
        obtain ⟨h1, h2, h3⟩ := hs pos a b hpos hm
        have : b ≠ pos := by
          rintro rfl
          have : a = b := by omega
          subst this
          exact h a hr hp hm
        obtain ⟨ms, hms⟩ := ih b (by omega) h3 (.next pos a b hr hp hm)
        exact ⟨_, .match_ pos a b ms hp hm hms⟩
    · exact ⟨[], .atEnd pos (by omega)⟩

/-- A scan only meets positions where the search advances. -/
theorem Spec.Scan.not_stuck {m : Matcher} {s : Str} {pos : Nat} {ms : List (Nat × Nat)} (h : Scan m s pos ms) :
    pos < s.length → m s pos ≠ some (pos, pos) := by
  intro hp he
  cases h with
  | atEnd _ h1 => omega
  | noMatch _ _ h2 => rw [he] at h2; cases h2
  | match_ _ a b ms _ h2 h3 =>
    have h4 := h2
    rw [he] at h4
    injection h4 with h4
    injection h4 with e1 e2
    subst e1; subst e2
    have := congrArg List.length (h3.det (.match_ _ _ _ _ hp h2 h3))
    simp at this

theorem scan_of_reached {m : Matcher} {s : Str} {ms : List (Nat × Nat)} (h : Scan m s 0 ms) {p : Nat}
    (hr : Reached m s p) : ∃ ms', Scan m s p ms' := by
  induction hr with
  | start => exact ⟨ms, h⟩
  | next pos a b _ hp hm ih =>
    obtain ⟨ms', hms⟩ := ih
    cases hms with
    | atEnd _ h1 => omega
    | noMatch _ _ h2 => rw [hm] at h2; cases h2
    | match_ _ a' b' ms'' _ h2 h3 =>
      rw [hm] at h2
      injection h2 with h2
      injection h2 with e1 e2
      subst e1; subst e2
      exact ⟨_, h3⟩

/-! ### regex search -/

theorem mem_downFrom (n k : Nat) : k ∈ downFrom n ↔ 1 ≤ k ∧ k ≤ n := by
  induction n with
  | zero => simp [downFrom]; omega
  | succ n ih => simp [downFrom, ih]; omega

theorem Re.ends_le (r : Re) (bef aft : Str) : ∀ n ∈ r.ends bef aft, n ≤ aft.length := by
  induction r generalizing bef aft with
  | cls p =>
    intro n hn
    cases aft with
    | nil => simp [Re.ends] at hn
    | cons c cs =>
      simp only [Re.ends] at hn
      split at hn <;> simp at hn
      simp [hn]
  | plus p =>
    intro n hn
    simp only [Re.ends, mem_downFrom] at hn
    have : (aft.takeWhile p).length ≤ aft.length := by
      exact (List.takeWhile_sublist p).length_le
    omega
  | seq a b iha ihb =>
    intro n hn
    simp only [Re.ends, List.mem_flatMap, List.mem_map] at hn
    obtain ⟨i, hi, j, hj, rfl⟩ := hn
    have h1 := iha bef aft i hi
    have h2 := ihb _ _ j hj
    rw [List.length_drop] at h2
    omega
  | alt a b iha ihb =>
    intro n hn
    simp only [Re.ends, List.mem_append] at hn
    exact hn.elim (iha bef aft n) (ihb bef aft n)
  | notBehind p =>
    intro n hn
    cases bef with
    | nil => simp [Re.ends] at hn; omega
    | cons c cs => simp only [Re.ends] at hn; split at hn <;> simp at hn; omega
  | notAhead p =>
    intro n hn
    cases aft with
    | nil => simp [Re.ends] at hn; omega
    | cons c cs => simp only [Re.ends] at hn; split at hn <;> simp at hn; omega
  | bos => intro n hn; simp only [Re.ends] at hn; split at hn <;> simp at hn; omega
  | eos => intro n hn; simp only [Re.ends] at hn; split at hn <;> simp at hn; omega

theorem searchFrom_here (r : Re) (bef aft : Str) (n : Nat) (h : (r.ends bef aft).head? = some n) :
    r.searchFrom bef aft = some (bef.length, bef.length + n) := by
  cases aft with
  | nil =>
    simp only [Re.searchFrom]
    cases he : r.ends bef [] with
    | nil => rw [he] at h; simp at h
    | cons k ks => rw [he] at h; simp at h; simp [h]
  | cons c cs =>
    simp only [Re.searchFrom]
    cases he : r.ends bef (c :: cs) with
    | nil => rw [he] at h; simp at h
    | cons k ks => rw [he] at h; simp at h; simp [h]

theorem searchFrom_step (r : Re) (bef : Str) (c : Char) (cs : Str) (h : r.ends bef (c :: cs) = []) :
    r.searchFrom bef (c :: cs) = r.searchFrom (c :: bef) cs := by
  simp only [Re.searchFrom, h]

theorem searchFrom_end (r : Re) (bef : Str) (h : r.ends bef [] = []) : r.searchFrom bef [] = none := by
  simp only [Re.searchFrom, h]

/-- Skip a stretch of text in which no match starts. -/
theorem searchFrom_skip (r : Re) (x bef aft : Str)
    (h : ∀ y z, x = y ++ z → z ≠ [] → r.ends (y.reverse ++ bef) (z ++ aft) = []) :
    r.searchFrom bef (x ++ aft) = r.searchFrom (x.reverse ++ bef) aft := by
  induction x generalizing bef with
  | nil => rfl
  | cons c x ih =>
    have h0 := h [] (c :: x) rfl (by simp)
    simp only [List.reverse_nil, List.nil_append, List.cons_append] at h0
    rw [List.cons_append, searchFrom_step r bef c _ h0, ih]
    · simp
    · intro y z hyz hz
      have := h (c :: y) z (by simp [hyz]) hz
      simpa using this

theorem search_append (r : Re) (pre aft : Str) :
    r.search (pre ++ aft) pre.length = r.searchFrom pre.reverse aft := by
  simp [Re.search]

theorem searchFrom_some (r : Re) (bef aft : Str) (a b : Nat) (h : r.searchFrom bef aft = some (a, b)) :
    ∃ x y n, aft = x ++ y ∧ a = bef.length + x.length ∧ b = a + n ∧
      (r.ends (x.reverse ++ bef) y).head? = some n ∧
      (∀ x' y', aft = x' ++ y' → x'.length < x.length → r.ends (x'.reverse ++ bef) y' = []) := by
  induction aft generalizing bef with
  | nil =>
    simp only [Re.searchFrom] at h
    cases he : r.ends bef [] with
    | nil => rw [he] at h; cases h
    | cons n ns =>
      rw [he] at h
      injection h with h
      injection h with h1 h2
      exact ⟨[], [], n, rfl, by simp [h1], by omega, by simp [he], fun _ _ _ h => by simp at h⟩
  | cons c cs ih =>
    simp only [Re.searchFrom] at h
    cases he : r.ends bef (c :: cs) with
    | cons n ns =>
      rw [he] at h
      injection h with h
      injection h with h1 h2
      exact ⟨[], c :: cs, n, rfl, by simp [h1], by omega, by simp [he], fun _ _ _ h => by simp at h⟩
    | nil =>
      rw [he] at h
      obtain ⟨x, y, n, h1, h2, h3, h4, h5⟩ := ih (c :: bef) h
      refine ⟨c :: x, y, n, by rw [h1]; rfl, by simp at h2 ⊢; omega, h3, by simpa using h4, ?_⟩
      intro x' y' hxy hlen
      cases x' with
      | nil => simp at hxy; rw [← hxy]; simpa using he
      | cons d x' =>
        simp only [List.cons_append, List.cons.injEq] at hxy
        obtain ⟨rfl, hxy⟩ := hxy
        have := h5 x' y' hxy (by simp at hlen; omega)
        simpa using this

theorem searchFrom_none (r : Re) (bef aft : Str) (h : r.searchFrom bef aft = none) :
    ∀ x y, aft = x ++ y → r.ends (x.reverse ++ bef) y = [] := by
  induction aft generalizing bef with
  | nil =>
    intro x y hxy
    obtain ⟨rfl, rfl⟩ := List.append_eq_nil_iff.mp hxy.symm
    simp only [Re.searchFrom] at h
    cases he : r.ends bef [] with
    | nil => simpa using he
    | cons n ns => rw [he] at h; cases h
  | cons c cs ih =>
    simp only [Re.searchFrom] at h
    cases he : r.ends bef (c :: cs) with
    | cons n ns => rw [he] at h; cases h
    | nil =>
      rw [he] at h
      intro x y hxy
      cases x with
      | nil => simp at hxy; rw [← hxy]; simpa using he
      | cons d x =>
        simp only [List.cons_append, List.cons.injEq] at hxy
        obtain ⟨rfl, hxy⟩ := hxy
        have := ih (c :: bef) h x y hxy
        simpa using this

theorem search_sound (r : Re) (s : Str) : SoundMatcher r.search s := by
  intro pos a b hpos h
  obtain ⟨x, y, n, h1, h2, h3, h4, _⟩ := searchFrom_some r _ _ a b h
  have hn := Re.ends_le r _ _ n (List.mem_of_mem_head? h4)
  have := congrArg List.length h1
  simp only [List.length_drop, List.length_append] at this
  simp only [List.length_reverse, List.length_take] at h2
  omega

/-! ### the operator, given the scan -/

/-- `slice` of a middle part. -/
theorem slice_append_mid (pre x post : Str) :
    slice (pre ++ x ++ post) pre.length (pre.length + x.length) = x := by
  unfold slice
  rw [show pre.length + x.length = (pre ++ x).length by simp, List.take_left, List.drop_left]

theorem patternGroup_of_scan (σ : SetOrder) (m : Matcher) (nv : Str → Nat → Nat → Str) (s : Str)
    (hs : SoundMatcher m s) (ms : List (Nat × Nat)) (hscan : Scan m s 0 ms)
    (ps : List (Piece Char Char)) (hg : groupOf 0 ps = ms.map fun x => ⟨x.1, x.2, nv s x.1 x.2⟩)
    (hsep : Separated false ps) :
    patternGroup σ m nv (s.length + 1) s = some (.ok ⟨groupOf 0 ps, true⟩) := by
  unfold patternGroup
  have hl := hscan.length_le hs
  rw [searchLoop_of_scan nv hscan (hscan.wf hs (Nat.zero_le _)) _ (by omega) _]
  simp only [ReplacementGroup.empty, List.nil_append, Option.map_some]
  rw [← hg]
  exact congrArg some (done_groupOf σ 0 ps false _ hsep)

theorem patternTransform_of_scan (σ : SetOrder) (m : Matcher) (token : Str) (f b : Transducer) (s : Str)
    (hs : SoundMatcher m s) (ms : List (Nat × Nat)) (hscan : Scan m s 0 ms)
    (ps : List (Piece Char Char)) (hg : groupOf 0 ps = ms.map fun x => ⟨x.1, x.2, token⟩)
    (hsep : Separated false ps) (hsrc : srcOf ps = s) :
    patternTransform σ m token f b s =
      .ok (dstOf ps, Aligner.ofStrEdit σ s ⟨groupOf 0 ps, true⟩ (dstOf ps).length f b) := by
  unfold patternTransform patternTransformFuel
  rw [patternGroup_of_scan σ m _ s hs ms hscan ps hg hsep]
  simp only [Option.map_some, Except.bind_ok]
  have := strApply_pieces ps
  rw [hsrc] at this
  rw [this]
  rfl

/-! ### regexes that recognise maximal runs -/

/-- The regex only matches at the start of a maximal run of `p`-characters, and there it matches the
whole run if `q` holds (of the reversed text before the run, the run, and the text after it) and
nothing otherwise. -/
structure RunRe (r : Re) (p : Char → Bool) (q : Str → Str → Str → Bool) : Prop where
  off : ∀ bef aft, (∀ c ∈ aft.head?, p c = false) → r.ends bef aft = []
  run : ∀ bef x rest, x ≠ [] → Uniform p true x → (∀ c ∈ bef.head?, p c = false) →
    (∀ c ∈ rest.head?, p c = false) →
    (r.ends bef (x ++ rest)).head? = if q bef x rest then some x.length else none
  interior : ∀ bef x y rest, x ≠ [] → y ≠ [] → Uniform p true (x ++ y) → (∀ c ∈ bef.head?, p c = false) →
    (∀ c ∈ rest.head?, p c = false) → q bef (x ++ y) rest = false →
    r.ends (x.reverse ++ bef) (y ++ rest) = []

/-- Pieces of the edit: matching runs are replaced. `bef` is the reversed text before the runs. -/
def runPieces (p : Char → Bool) (q : Str → Str → Str → Bool) (nv : Str → Str) :
    (bef : Str) → List Str → List (Piece Char Char)
  | _, [] => []
  | bef, r :: rs =>
    (if isRunOf p r && q bef r rs.flatten then sub r (nv r) else keep r)
      :: runPieces p q nv (r.reverse ++ bef) rs

theorem Spec.Scan.of_eq {m : Matcher} {s : Str} {pos pos' : Nat} {ms : List (Nat × Nat)} (hp : pos < s.length)
    (he : m s pos = m s pos') (hend : s.length ≤ pos' → m s pos' = none) (h : Scan m s pos' ms) :
    Scan m s pos ms := by
  cases h with
  | atEnd _ h1 => exact .noMatch pos hp (by rw [he]; exact hend h1)
  | noMatch _ _ h2 => exact .noMatch pos hp (by rw [he]; exact h2)
  | match_ _ a b ms h1 h2 h3 => exact .match_ pos a b ms hp (by rw [he]; exact h2) h3

theorem srcOf_runPieces (p : Char → Bool) (q : Str → Str → Str → Bool) (nv : Str → Str) (bef : Str)
    (rs : List Str) : srcOf (runPieces p q nv bef rs) = rs.flatten := by
  induction rs generalizing bef with
  | nil => rfl
  | cons r rs ih =>
    simp only [runPieces]
    split <;> simp [ih]

theorem mem_runPieces {p : Char → Bool} {q : Str → Str → Str → Bool} {nv : Str → Str} {bef : Str}
    {rs : List Str} {o n : Str} (h : sub o n ∈ runPieces p q nv bef rs) :
    o ∈ rs ∧ isRunOf p o = true ∧ n = nv o := by
  induction rs generalizing bef with
  | nil => simp [runPieces] at h
  | cons r rs ih =>
    simp only [runPieces] at h
    rcases List.mem_cons.mp h with h | h
    · split at h
      · rename_i hc
        injection h with h1 h2
        subst h1
        simp only [Bool.and_eq_true] at hc
        exact ⟨by simp, hc.1, h2⟩
      · cases h
    · obtain ⟨h1, h2, h3⟩ := ih h
      exact ⟨by simp [h1], h2, h3⟩

theorem runPieces_scan (r : Re) (p : Char → Bool) (q : Str → Str → Str → Bool) (hr : RunRe r p q)
    (nv : Str → Str) (nv' : Str → Nat → Nat → Str) (hnv : ∀ s a b, nv' s a b = nv (slice s a b))
    (b : Bool) (rs : List Str) (hrs : IsRuns p b rs) (pre : Str)
    (hpre : b = true → ∀ c ∈ pre.reverse.head?, p c = false) (s : Str) (hs : s = pre ++ rs.flatten) :
    ∃ ms, Scan r.search s pre.length ms ∧
      groupOf pre.length (runPieces p q nv pre.reverse rs) =
        ms.map fun x => (⟨x.1, x.2, nv' s x.1 x.2⟩ : Rep Str) := by
  induction rs generalizing b pre with
  | nil =>
    refine ⟨[], .atEnd _ (by simp [hs]), rfl⟩
  | cons x rs ih =>
    obtain ⟨h1, h2, h3⟩ := hrs
    simp only [List.flatten_cons] at hs
    have hs' : s = (pre ++ x) ++ rs.flatten := by rw [hs]; simp
    obtain ⟨ms, hscan, hgrp⟩ := ih (!b) h3 (pre ++ x) (by
      intro hb c hc
      have hbf : b = false := by simpa using hb
      rw [List.reverse_append] at hc
      obtain ⟨d, x', hx⟩ := List.exists_cons_of_ne_nil (show x.reverse ≠ [] by simpa using h1)
      rw [hx] at hc
      simp at hc
      subst hc
      have : d ∈ x := by rw [← List.mem_reverse, hx]; simp
      rw [h2 d this, hbf]) hs'
    have hlen : pre.length < s.length := by
      rw [hs]
      have := List.length_pos_iff.mpr h1
      simp; omega
    have hsearch : r.search s pre.length = r.searchFrom pre.reverse (x ++ rs.flatten) := by
      rw [hs]; exact search_append r pre _
    have hsearch' : r.search s (pre ++ x).length = r.searchFrom (pre ++ x).reverse rs.flatten := by
      rw [hs']; exact search_append r (pre ++ x) _
    have hrev : (pre ++ x).reverse = x.reverse ++ pre.reverse := List.reverse_append
    -- when the run does not match
    have hskip : (∀ y z, x = y ++ z → z ≠ [] → r.ends (y.reverse ++ pre.reverse) (z ++ rs.flatten) = []) →
        Scan r.search s pre.length ms := by
      intro hno
      refine Spec.Scan.of_eq hlen ?_ ?_ hscan
      · rw [hsearch, hsearch', hrev]
        exact searchFrom_skip r x _ _ hno
      · intro hle
        have : rs.flatten = [] := by
          rw [hs'] at hle
          simp only [List.length_append] at hle
          apply List.length_eq_zero_iff.mp
          omega
        rw [hsearch', this]
        exact searchFrom_end r _ (hr.off _ _ (by simp))
    simp only [runPieces]
    cases b with
    | false =>
      have hrun : isRunOf p x = false := isRunOf_uniform h1 h2
      refine ⟨ms, hskip ?_, ?_⟩
      · intro y z hyz hz
        apply hr.off
        obtain ⟨c, z', rfl⟩ := List.exists_cons_of_ne_nil hz
        intro d hd
        simp at hd
        subst hd
        exact h2 c (by rw [hyz]; simp)
      · rw [hrun]
        simp only [Bool.false_and, Bool.false_eq_true, if_false, groupOf]
        rw [← hrev]
        rw [List.length_append] at hgrp
        exact hgrp
    | true =>
      have hrun : isRunOf p x = true := isRunOf_uniform h1 h2
      have hh := hr.run pre.reverse x rs.flatten h1 h2 (hpre rfl) h3.head_flatten
      rw [hrun]
      simp only [Bool.true_and]
      cases hq : q pre.reverse x rs.flatten with
      | true =>
        rw [hq] at hh
        simp only [if_true] at hh ⊢
        have hfound := searchFrom_here r _ _ _ hh
        simp only [List.length_reverse] at hfound
        rw [← hsearch] at hfound
        rw [List.length_append] at hscan hgrp
        refine ⟨_, .match_ _ _ _ ms hlen hfound hscan, ?_⟩
        simp only [groupOf, List.map_cons, hnv]
        rw [hs', slice_append_mid, ← hrev, ← hs', hgrp]
        simp [hnv]
      | false =>
        rw [hq] at hh
        simp only [Bool.false_eq_true, if_false] at hh ⊢
        refine ⟨ms, hskip ?_, ?_⟩
        · intro y z hyz hz
          by_cases hy : y = []
          · subst hy
            simp only [List.nil_append] at hyz
            subst hyz
            simpa using List.head?_eq_none_iff.mp hh
          · exact hr.interior _ y z _ hy hz (hyz ▸ h2) (hpre rfl) h3.head_flatten (hyz ▸ hq)
        · simp only [groupOf]
          rw [← hrev]
          rw [List.length_append] at hgrp
          exact hgrp

/-- The edit of a run regex. -/
theorem patternGroup_runs (σ : SetOrder) (r : Re) (p : Char → Bool) (q : Str → Str → Str → Bool)
    (hr : RunRe r p q) (nv : Str → Str) (nv' : Str → Nat → Nat → Str)
    (hnv : ∀ s a b, nv' s a b = nv (slice s a b)) (s : Str) :
    patternGroup σ r.search nv' (s.length + 1) s =
      some (.ok ⟨groupOf 0 (runPieces p q nv [] (runs p s)), true⟩) := by
  obtain ⟨b, _, hrs⟩ := runs_isRuns p s
  obtain ⟨ms, hscan, hg⟩ := runPieces_scan r p q hr nv nv' hnv b _ hrs [] (by simp) s
    (by rw [runs_flatten]; rfl)
  refine patternGroup_of_scan σ _ nv' s (search_sound r s) ms hscan _ hg ?_
  refine separated_of_nonempty _ (fun o n hm => ?_) _
  exact (mem_runs p s o (mem_runPieces hm).1).1

theorem patternTransform_runs (σ : SetOrder) (r : Re) (p : Char → Bool) (q : Str → Str → Str → Bool)
    (hr : RunRe r p q) (token : Str) (f b : Transducer) (s : Str) :
    let ps := runPieces p q (fun _ => token) [] (runs p s)
    patternTransform σ r.search token f b s =
      .ok (dstOf ps, Aligner.ofStrEdit σ s ⟨groupOf 0 ps, true⟩ (dstOf ps).length f b) ∧ srcOf ps = s := by
  intro ps
  have hsrc : srcOf ps = s := by rw [srcOf_runPieces, runs_flatten]
  refine ⟨?_, hsrc⟩
  unfold patternTransform patternTransformFuel
  rw [patternGroup_runs σ r p q hr (fun _ => token) _ (fun _ _ _ => rfl) s]
  simp only [Option.map_some, Except.bind_ok]
  have := strApply_pieces ps
  rw [hsrc] at this
  rw [this]
  rfl

/-! ### regexes whose verdict on a run does not depend on the context -/

theorem dstOf_runPieces (p : Char → Bool) (q : Str → Bool) (nv : Str → Str) (bef : Str) (rs : List Str) :
    dstOf (runPieces p (fun _ r _ => q r) nv bef rs) =
      rs.flatMap fun r => if isRunOf p r then (if q r then nv r else r) else r := by
  induction rs generalizing bef with
  | nil => rfl
  | cons r rs ih =>
    simp only [runPieces, List.flatMap_cons]
    by_cases h1 : isRunOf p r = true <;> by_cases h2 : q r = true <;> simp [ih, h1, h2]

theorem mem_runPieces' {p : Char → Bool} {q : Str → Bool} {nv : Str → Str} {bef : Str}
    {rs : List Str} {o n : Str} (h : sub o n ∈ runPieces p (fun _ r _ => q r) nv bef rs) :
    o ∈ rs ∧ isRunOf p o = true ∧ q o = true ∧ n = nv o := by
  induction rs generalizing bef with
  | nil => simp [runPieces] at h
  | cons r rs ih =>
    simp only [runPieces] at h
    rcases List.mem_cons.mp h with h | h
    · split at h
      · rename_i hc
        injection h with h1 h2
        subst h1
        simp only [Bool.and_eq_true] at hc
        exact ⟨by simp, hc.1, hc.2, h2⟩
      · cases h
    · obtain ⟨h1, h2, h3⟩ := ih h
      exact ⟨by simp [h1], h2, h3⟩

/-- Labels after an edit whose transducer computes `F`. -/
def labelsWith {α β : Type} (F : List Int → Nat → List Int) : List (Piece α β) → List Int → List Int
  | [], _ => []
  | keep l :: ps, ls => ls.take l.length ++ labelsWith F ps (ls.drop l.length)
  | sub o n :: ps, ls => F (ls.take o.length) n.length ++ labelsWith F ps (ls.drop o.length)

theorem relabel_labelsWith {α β : Type} (f : Transducer) (F : List Int → Nat → List Int)
    (ps : List (Piece α β))
    (hf : ∀ o n, sub o n ∈ ps → ∀ x, x.length = o.length → f x n.length = .ok (F x n.length))
    (ls : List Int) (hl : ls.length = (srcOf ps).length) :
    relabel f (withLabels ps ls) = .ok (labelsWith F ps ls) := by
  induction ps generalizing ls with
  | nil => rfl
  | cons p ps ih =>
    cases p with
    | keep l =>
      simp only [srcOf_keep, List.length_append] at hl
      have := ih (fun o n hm => hf o n (by simp [hm])) (ls.drop l.length) (by rw [List.length_drop]; omega)
      exact relabel_cons_keep f _ _ _ this
    | sub o n =>
      simp only [srcOf_sub, List.length_append] at hl
      have := ih (fun o n hm => hf o n (by simp [hm])) (ls.drop o.length) (by rw [List.length_drop]; omega)
      exact relabel_cons_sub f _ _ _ _ _ (hf o n (by simp) _ (by rw [List.length_take]; omega)) this

/-- The labels of each run, and what becomes of them. -/
theorem labelsWith_runPieces (p : Char → Bool) (q : Str → Bool) (nv : Str → Str)
    (F : List Int → Nat → List Int) (bef : Str) (rs : List Str) (ls : List Int) :
    labelsWith F (runPieces p (fun _ r _ => q r) nv bef rs) ls =
      (rs.zip (splitLike rs ls)).flatMap fun x =>
        if isRunOf p x.1 = true ∧ q x.1 = true then F x.2 (nv x.1).length else x.2 := by
  induction rs generalizing bef ls with
  | nil => rfl
  | cons r rs ih =>
    simp only [runPieces, splitLike, List.zip_cons_cons, List.flatMap_cons]
    by_cases h1 : isRunOf p r = true <;> by_cases h2 : q r = true <;> simp [ih, h1, h2, labelsWith]

theorem labelsWith_runPieces_swap (p : Char → Bool) (q : Str → Bool) (nv : Str → Str)
    (F : List Int → Nat → List Int) (bef : Str) (rs : List Str) (ls : List Int) :
    labelsWith F ((runPieces p (fun _ r _ => q r) nv bef rs).map swap) ls =
      (rs.zip (splitLike (rs.map fun r => if isRunOf p r = true ∧ q r = true then nv r else r) ls)).flatMap
        fun x => if isRunOf p x.1 = true ∧ q x.1 = true then F x.2 x.1.length else x.2 := by
  induction rs generalizing bef ls with
  | nil => rfl
  | cons r rs ih =>
    simp only [runPieces, splitLike, List.zip_cons_cons, List.flatMap_cons, List.map_cons]
    by_cases h1 : isRunOf p r = true <;> by_cases h2 : q r = true <;>
      simp [ih, h1, h2, labelsWith, swap]

/-- Pieces cut where the regex matches: no match starts inside kept text, and replaced text is the match
found at its start. `bef` is the reversed text before the pieces. -/
def Cuts (r : Re) : (bef : Str) → List (Piece Char Char) → Prop
  | bef, [] => r.ends bef [] = []
  | bef, keep x :: ps =>
    (∀ y z, x = y ++ z → z ≠ [] → r.ends (y.reverse ++ bef) (z ++ srcOf ps) = []) ∧
      Cuts r (x.reverse ++ bef) ps
  | bef, sub o _ :: ps =>
    o ≠ [] ∧ (r.ends bef (o ++ srcOf ps)).head? = some o.length ∧ Cuts r (o.reverse ++ bef) ps

theorem Cuts.sub_ne {r : Re} {bef : Str} {ps : List (Piece Char Char)} (h : Cuts r bef ps) :
    ∀ o n, sub o n ∈ ps → o ≠ [] := by
  induction ps generalizing bef with
  | nil => simp
  | cons p ps ih =>
    intro o n hm
    cases p with
    | keep x =>
      rcases List.mem_cons.mp hm with hm | hm
      · cases hm
      · exact ih h.2 o n hm
    | sub o' n' =>
      rcases List.mem_cons.mp hm with hm | hm
      · injection hm with h1 h2; rw [h1]; exact h.1
      · exact ih h.2.2 o n hm

theorem Cuts.end_none {r : Re} {bef : Str} {ps : List (Piece Char Char)} (h : Cuts r bef ps)
    (he : srcOf ps = []) : r.ends bef [] = [] := by
  induction ps generalizing bef with
  | nil => exact h
  | cons p ps ih =>
    cases p with
    | keep x =>
      simp only [srcOf_keep, List.append_eq_nil_iff] at he
      obtain ⟨rfl, he⟩ := he
      exact ih h.2 he
    | sub o n =>
      simp only [srcOf_sub, List.append_eq_nil_iff] at he
      exact absurd he.1 h.1

theorem Cuts.scan {r : Re} (token : Str) (ps : List (Piece Char Char)) (pre s : Str)
    (h : Cuts r pre.reverse ps) (htok : ∀ o n, sub o n ∈ ps → n = token) (hs : s = pre ++ srcOf ps) :
    ∃ ms, Scan r.search s pre.length ms ∧
      groupOf pre.length ps = ms.map fun x => (⟨x.1, x.2, token⟩ : Rep Str) := by
  induction ps generalizing pre with
  | nil => exact ⟨[], .atEnd _ (by simp [hs]), rfl⟩
  | cons p ps ih =>
    cases p with
    | keep x =>
      simp only [srcOf_keep] at hs
      have hs' : s = (pre ++ x) ++ srcOf ps := by rw [hs]; simp
      obtain ⟨ms, hscan, hg⟩ := ih (pre ++ x) (by rw [List.reverse_append]; exact h.2)
        (fun o n hm => htok o n (by simp [hm])) hs'
      rw [List.length_append] at hg
      refine ⟨ms, ?_, hg⟩
      by_cases hx : x = []
      · subst hx; simpa using hscan
      · have hlen : pre.length < s.length := by
          rw [hs]
          have := List.length_pos_iff.mpr hx
          simp; omega
        have hsearch : r.search s pre.length = r.searchFrom pre.reverse (x ++ srcOf ps) := by
          rw [hs]; exact search_append r pre _
        have hsearch' : r.search s (pre ++ x).length = r.searchFrom (x.reverse ++ pre.reverse) (srcOf ps) := by
          rw [hs', search_append r (pre ++ x), List.reverse_append]
        refine Spec.Scan.of_eq hlen ?_ ?_ hscan
        · rw [hsearch, hsearch']
          exact searchFrom_skip r x _ _ h.1
        · intro hle
          have : srcOf ps = [] := by
            rw [hs'] at hle
            simp only [List.length_append] at hle
            apply List.length_eq_zero_iff.mp
            omega
          rw [hsearch', this]
          exact searchFrom_end r _ (h.2.end_none this)
    | sub o n =>
      simp only [srcOf_sub] at hs
      have hs' : s = (pre ++ o) ++ srcOf ps := by rw [hs]; simp
      obtain ⟨ms, hscan, hg⟩ := ih (pre ++ o) (by rw [List.reverse_append]; exact h.2.2)
        (fun o n hm => htok o n (by simp [hm])) hs'
      have hlen : pre.length < s.length := by
        rw [hs]
        have := List.length_pos_iff.mpr h.1
        simp; omega
      have hsearch : r.search s pre.length = r.searchFrom pre.reverse (o ++ srcOf ps) := by
        rw [hs]; exact search_append r pre _
      have hfound := searchFrom_here r _ _ _ h.2.1
      rw [← hsearch, List.length_reverse] at hfound
      rw [List.length_append] at hscan hg
      refine ⟨_, .match_ _ _ _ ms hlen hfound hscan, ?_⟩
      simp only [groupOf, List.map_cons, hg]
      rw [htok o n (by simp)]

theorem patternTransform_cuts (σ : SetOrder) (r : Re) (token : Str) (f b : Transducer) (s : Str)
    (ps : List (Piece Char Char)) (h : Cuts r [] ps) (htok : ∀ o n, sub o n ∈ ps → n = token)
    (hsrc : srcOf ps = s) :
    patternTransform σ r.search token f b s =
      .ok (dstOf ps, Aligner.ofStrEdit σ s ⟨groupOf 0 ps, true⟩ (dstOf ps).length f b) := by
  obtain ⟨ms, hscan, hg⟩ := Cuts.scan token ps [] s h htok hsrc.symm
  exact patternTransform_of_scan σ _ token f b s (search_sound r s) ms hscan ps hg
    (separated_of_nonempty _ h.sub_ne _) hsrc

/-- `[...]+`: every maximal run matches. -/
theorem runRe_plus (p : Char → Bool) : RunRe (.plus p) p (fun _ _ _ => true) where
  off bef aft h := by
    simp only [Re.ends]
    cases aft with
    | nil => rfl
    | cons c cs =>
      have : p c = false := h c (by simp)
      rw [List.takeWhile_cons_of_neg (by simp [this])]
      rfl
  run bef x rest hx hu _ hrest := by
    simp only [Re.ends, if_true]
    have : (x ++ rest).takeWhile p = x := by
      rw [List.takeWhile_append_of_pos (fun c hc => hu c hc)]
      cases rest with
      | nil => simp
      | cons c cs =>
        have : p c = false := hrest c (by simp)
        rw [List.takeWhile_cons_of_neg (by simp [this])]
        simp
    rw [this]
    cases x with
    | nil => exact absurd rfl hx
    | cons c cs => rfl
  interior bef x y rest _ _ _ _ _ h := by simp at h

end Uttut
