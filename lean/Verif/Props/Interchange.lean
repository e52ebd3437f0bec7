import Verif.Spec.Interchange
import Verif.Props.Construct
import Verif.Props.Survive
import Verif.Props.Bert

/-!
C76: steps of a pipe that can stand for each other.
-/

namespace Uttut

open Spec

/-! ### Interchangeable steps inside a pipe -/

theorem sameOutcome_symm {r r' : Res (Seq × List Aligner × List Seq)} (h : SameOutcome r r') : SameOutcome r' r := by
  cases h with
  | error e => exact .error e
  | ok out as bs c c' f b => exact .ok out bs as c' c (fun ls => (f ls).symm) fun ls => (b ls).symm

theorem sameOutcome_trans {r r' r'' : Res (Seq × List Aligner × List Seq)} (h : SameOutcome r r')
    (h' : SameOutcome r' r'') : SameOutcome r r'' := by
  cases h with
  | error e => exact h'
  | ok out as bs c c' f b =>
    cases h' with
    | ok out bs ds c' c'' f' b' =>
      exact .ok out as ds c c'' (fun ls => (f ls).trans (f' ls)) fun ls => (b ls).trans (b' ls)

theorem sameOutcome_refl (r : Res (Seq × List Aligner × List Seq)) : SameOutcome r r := by
  cases r with
  | error e => exact .error e
  | ok x => exact .ok x.1 x.2.1 x.2.1 x.2.2 x.2.2 (fun _ => rfl) fun _ => rfl

/-- C76: `Interchangeable` is an equivalence. -/
theorem C76_equivalence : (∀ xs, Interchangeable xs xs) ∧ (∀ xs ys, Interchangeable xs ys → Interchangeable ys xs) ∧
    (∀ xs ys zs, Interchangeable xs ys → Interchangeable ys zs → Interchangeable xs zs) :=
  ⟨fun _ _ => sameOutcome_refl _, fun _ _ h s => sameOutcome_symm (h s),
    fun _ _ _ h h' s => sameOutcome_trans (h s) (h' s)⟩

theorem runSteps_acc (ops : List Op) (s : Seq) (as : List Aligner) (coll : List Seq) :
    Pipe.runSteps ops s as coll =
      Pipe.runSteps ops s [] [] >>= fun r => .ok (r.1, as ++ r.2.1, coll ++ r.2.2) := by
  induction ops generalizing s as coll with
  | nil => simp [Pipe.runSteps, bind, Except.bind]
  | cons op ops ih =>
    show (op.transform s >>= _) = ((op.transform s >>= _) >>= _)
    cases op.transform s with
    | error e => rfl
    | ok r =>
      show Pipe.runSteps ops r.1 (as ++ [r.2]) (coll ++ [r.1]) = (Pipe.runSteps ops r.1 ([] ++ [r.2]) ([] ++ [r.1]) >>= _)
      rw [ih r.1 (as ++ [r.2]) (coll ++ [r.1]), ih r.1 ([] ++ [r.2]) ([] ++ [r.1])]
      cases Pipe.runSteps ops r.1 [] [] with
      | error e => rfl
      | ok q => simp [bind, Except.bind]

theorem sameOutcome_acc {r r' : Res (Seq × List Aligner × List Seq)} (h : SameOutcome r r') (as bs : List Aligner)
    (hf : ∀ ls, alignAll as ls = alignAll bs ls) (hb : ∀ ls, realignAll as ls = realignAll bs ls) (c c' : List Seq) :
    SameOutcome (r >>= fun x => .ok (x.1, as ++ x.2.1, c ++ x.2.2)) (r' >>= fun x => .ok (x.1, bs ++ x.2.1, c' ++ x.2.2)) := by
  cases h with
  | error e => exact .error e
  | ok out xs ys d d' f b =>
    refine .ok out _ _ _ _ (fun ls => ?_) fun ls => ?_
    · rw [alignAll_append', alignAll_append', hf]
      exact congrArg _ (funext f)
    · rw [realignAll_append', realignAll_append', b]
      exact congrArg _ (funext hb)

theorem interchangeable_iff (xs ys : List Op) : Interchangeable xs ys ↔
    ∀ s, SameOutcome (Pipe.runSteps xs s [] []) (Pipe.runSteps ys s [] []) := by
  refine forall_congr' fun s => ?_
  unfold Pipe.transformSequence
  constructor
  · intro h
    rw [runSteps_acc xs, runSteps_acc ys] at h
    cases e1 : Pipe.runSteps xs s [] [] with
    | error e =>
      rw [e1] at h
      cases e2 : Pipe.runSteps ys s [] [] with
      | error e' => rw [e2] at h; cases h; exact .error _
      | ok q => rw [e2] at h; cases h
    | ok r =>
      rw [e1] at h
      cases e2 : Pipe.runSteps ys s [] [] with
      | error e' => rw [e2] at h; cases h
      | ok q =>
        rw [e2] at h
        obtain ⟨o, x, c⟩ := r
        obtain ⟨o', x', c'⟩ := q
        simp only [bind, Except.bind, List.nil_append] at h
        cases h with
        | ok _ _ _ _ _ f b => exact .ok _ _ _ _ _ f b
  · intro h
    rw [runSteps_acc xs, runSteps_acc ys]
    exact sameOutcome_acc h [] [] (fun _ => rfl) (fun _ => rfl) _ _

/-- C76: steps of a pipe can be replaced by interchangeable ones, wherever they stand. -/
theorem C76_replace (xs ys pre post : List Op) (h : Interchangeable xs ys) :
    Interchangeable (pre ++ xs ++ post) (pre ++ ys ++ post) := by
  have h1 : Interchangeable (xs ++ post) (ys ++ post) := by
    rw [interchangeable_iff] at h ⊢
    intro s
    rw [runSteps_append, runSteps_append]
    have := h s
    cases e1 : Pipe.runSteps xs s [] [] with
    | error e =>
      rw [e1] at this
      cases e2 : Pipe.runSteps ys s [] [] with
      | error e' => rw [e2] at this; cases this; exact .error _
      | ok q => rw [e2] at this; cases this
    | ok r =>
      rw [e1] at this
      cases e2 : Pipe.runSteps ys s [] [] with
      | error e' => rw [e2] at this; cases this
      | ok q =>
        rw [e2] at this
        cases this with
        | ok out as bs c c' f b =>
          simp only [Except.bind_ok]
          rw [runSteps_acc post, runSteps_acc post out bs]
          exact sameOutcome_acc (sameOutcome_refl _) _ _ f b _ _
  rw [List.append_assoc, List.append_assoc]
  rw [interchangeable_iff] at h1 ⊢
  intro s
  rw [runSteps_append, runSteps_append pre]
  cases Pipe.runSteps pre s [] [] with
  | error e => exact .error e
  | ok r =>
    simp only [Except.bind_ok]
    rw [runSteps_acc (xs ++ post), runSteps_acc (ys ++ post)]
    exact sameOutcome_acc (h1 r.1) _ _ (fun _ => rfl) (fun _ => rfl) _ _

/-! ### Labels of the characters that are not white space -/

/-- The labels of the characters that are not white space. -/
def solidOf : Str → List Int → List Int
  | c :: s, l :: ls => if isSpace c then solidOf s ls else l :: solidOf s ls
  | _, _ => []

/-- Labels for the characters that are not white space, 0 for the others. -/
def spreadOver : Str → List Int → List Int
  | [], _ => []
  | c :: s, zs => if isSpace c then 0 :: spreadOver s zs else zs.headD 0 :: spreadOver s zs.tail

/-- The number of characters that are not white space. -/
def solidCount (s : Str) : Nat := s.countP fun c => !isSpace c

theorem solidOf_append (x y : Str) (l m : List Int) (h : x.length = l.length) :
    solidOf (x ++ y) (l ++ m) = solidOf x l ++ solidOf y m := by
  induction x generalizing l with
  | nil =>
    cases l with
    | nil => rfl
    | cons a l => simp at h
  | cons c x ih =>
    cases l with
    | nil => simp at h
    | cons a l =>
      simp only [List.cons_append, solidOf]
      rw [ih l (by simpa using h)]
      split <;> rfl

theorem solidOf_spaces (x : Str) (l : List Int) (h : ∀ c ∈ x, isSpace c = true) : solidOf x l = [] := by
  induction x generalizing l with
  | nil => cases l <;> rfl
  | cons c x ih =>
    cases l with
    | nil => rfl
    | cons a l =>
      simp only [solidOf]
      rw [if_pos (h c (by simp)), ih l fun d hd => h d (by simp [hd])]

theorem solidOf_solid (x : Str) (l : List Int) (h : ∀ c ∈ x, isSpace c = false) (hl : x.length = l.length) :
    solidOf x l = l := by
  induction x generalizing l with
  | nil =>
    cases l with
    | nil => rfl
    | cons a l => simp at hl
  | cons c x ih =>
    cases l with
    | nil => simp at hl
    | cons a l =>
      simp only [solidOf]
      rw [if_neg (by rw [h c (by simp)]; decide), ih l (fun d hd => h d (by simp [hd])) (by simpa using hl)]

theorem spreadOver_length (s : Str) (zs : List Int) : (spreadOver s zs).length = s.length := by
  induction s generalizing zs with
  | nil => rfl
  | cons c s ih =>
    unfold spreadOver
    split <;> simp [ih]

theorem spreadOver_append (x y : Str) (z w : List Int) (h : z.length = solidCount x) :
    spreadOver (x ++ y) (z ++ w) = spreadOver x z ++ spreadOver y w := by
  induction x generalizing z with
  | nil =>
    have : z = [] := List.eq_nil_of_length_eq_zero h
    subst this
    rfl
  | cons c x ih =>
    simp only [List.cons_append, spreadOver]
    by_cases hc : isSpace c = true
    · rw [if_pos hc, if_pos hc, ih z (by rw [h]; simp [solidCount, List.countP_cons, hc])]
      rfl
    · have hc : isSpace c = false := by simpa using hc
      cases z with
      | nil => simp [solidCount, List.countP_cons, hc] at h
      | cons a z =>
        simp only [hc, Bool.false_eq_true, if_false, List.cons_append, List.headD_cons, List.tail_cons]
        rw [ih z (by simpa [solidCount, List.countP_cons, hc] using h)]

theorem spreadOver_spaces (x : Str) (z : List Int) (h : ∀ c ∈ x, isSpace c = true) : spreadOver x z = List.replicate x.length 0 := by
  induction x with
  | nil => rfl
  | cons c x ih =>
    unfold spreadOver
    rw [if_pos (h c (by simp)), ih fun d hd => h d (by simp [hd])]
    rfl

theorem spreadOver_solid (x : Str) (z : List Int) (h : ∀ c ∈ x, isSpace c = false) (hl : x.length = z.length) : spreadOver x z = z := by
  induction x generalizing z with
  | nil =>
    cases z with
    | nil => rfl
    | cons a l => simp at hl
  | cons c x ih =>
    cases z with
    | nil => simp at hl
    | cons a z =>
      unfold spreadOver
      rw [if_neg (by rw [h c (by simp)]; decide)]
      simp only [List.headD_cons, List.tail_cons]
      rw [ih z (fun d hd => h d (by simp [hd])) (by simpa using hl)]

theorem solidCount_append (x y : Str) : solidCount (x ++ y) = solidCount x + solidCount y := List.countP_append

theorem solidCount_spaces {x : Str} (h : ∀ c ∈ x, isSpace c = true) : solidCount x = 0 := by
  unfold solidCount
  rw [List.countP_eq_zero]
  intro c hc
  simp [h c hc]

theorem solidCount_solid {x : Str} (h : ∀ c ∈ x, isSpace c = false) : solidCount x = x.length := by
  unfold solidCount
  rw [List.countP_eq_length]
  intro c hc
  simp [h c hc]

theorem layout_cons (p : Str × Str) (ps : List (Str × Str)) (tail : Str) :
    layout (p :: ps) tail = p.1 ++ p.2 ++ layout ps tail := by
  simp only [layout, List.flatMap_cons, List.append_assoc]

/-- Cutting a list into pieces of given lengths. -/
theorem tokenSegs_solid (ps : List (Str × Str)) (tail : Str) (hg : ∀ p ∈ ps, ∀ c ∈ p.1, isSpace c = true)
    (hs : ∀ p ∈ ps, ∀ c ∈ p.2, isSpace c = false) (ls : List Int) (hl : ls.length = (layout ps tail).length) :
    tokenSegs ps ls = segments (ps.map fun p => p.2.length) (solidOf (layout ps tail) ls) := by
  induction ps generalizing ls with
  | nil => rfl
  | cons p ps ih =>
    rw [layout_cons] at hl ⊢
    simp only [List.length_append] at hl
    have e : ls = ls.take p.1.length ++ ((ls.drop p.1.length).take p.2.length ++ ls.drop (p.1.length + p.2.length)) := by
      rw [← List.drop_drop, List.take_append_drop, List.take_append_drop]
    have h1 : p.1.length = (ls.take p.1.length).length := by rw [List.length_take]; omega
    have h2 : p.2.length = ((ls.drop p.1.length).take p.2.length).length := by
      rw [List.length_take, List.length_drop]; omega
    have hsol : solidOf (p.1 ++ p.2 ++ layout ps tail) ls = (ls.drop p.1.length).take p.2.length ++
        solidOf (layout ps tail) (ls.drop (p.1.length + p.2.length)) := by
      conv => lhs; rw [e]
      rw [List.append_assoc, solidOf_append _ _ _ _ h1, solidOf_spaces _ _ (hg p (by simp)), List.nil_append,
        solidOf_append _ _ _ _ h2, solidOf_solid _ _ (hs p (by simp)) h2]
    rw [hsol]
    show _ :: _ = _ :: _
    rw [List.take_left' h2.symm, List.drop_left' h2.symm]
    rw [ih (fun q hq => hg q (by simp [hq])) (fun q hq => hs q (by simp [hq])) _ (by rw [List.length_drop]; omega)]

/-- Every token's label repeated for its characters. -/
def repeated (ns : List Nat) (ys : List Int) : List Int := (ns.zip ys).flatMap fun x => List.replicate x.1 x.2

theorem charLabels_spread (ps : List (Str × Str)) (tail : Str) (hg : ∀ p ∈ ps, ∀ c ∈ p.1, isSpace c = true)
    (hs : ∀ p ∈ ps, ∀ c ∈ p.2, isSpace c = false) (ht : ∀ c ∈ tail, isSpace c = true) (ys : List Int)
    (hl : ys.length = ps.length) :
    charLabels ps tail ys = spreadOver (layout ps tail) (repeated (ps.map fun p => p.2.length) ys) := by
  induction ps generalizing ys with
  | nil =>
    show List.replicate tail.length 0 = spreadOver tail _
    rw [spreadOver_spaces _ _ ht]
  | cons p ps ih =>
    cases ys with
    | nil => simp at hl
    | cons y ys =>
      rw [layout_cons]
      show List.replicate p.1.length 0 ++ List.replicate p.2.length y ++ charLabels ps tail ys =
        spreadOver _ (List.replicate p.2.length y ++ repeated (ps.map fun p => p.2.length) ys)
      rw [List.append_assoc p.1, ← List.nil_append (List.replicate p.2.length y ++ repeated _ ys),
        spreadOver_append _ _ _ _ (by rw [solidCount_spaces (hg p (by simp))]; rfl),
        spreadOver_append _ _ _ _ (by rw [solidCount_solid (hs p (by simp))]; simp),
        spreadOver_spaces _ _ (hg p (by simp)), spreadOver_solid _ _ (hs p (by simp)) (by simp),
        ih (fun q hq => hg q (by simp [hq])) (fun q hq => hs q (by simp [hq])) ys (by simpa using hl), List.append_assoc]

theorem repeated_length (ps : List (Str × Str)) (tail : Str) (hg : ∀ p ∈ ps, ∀ c ∈ p.1, isSpace c = true)
    (hs : ∀ p ∈ ps, ∀ c ∈ p.2, isSpace c = false) (ht : ∀ c ∈ tail, isSpace c = true) (ys : List Int)
    (hl : ys.length = ps.length) :
    (repeated (ps.map fun p => p.2.length) ys).length = solidCount (layout ps tail) := by
  induction ps generalizing ys with
  | nil =>
    show 0 = solidCount tail
    rw [solidCount_spaces ht]
  | cons p ps ih =>
    cases ys with
    | nil => simp at hl
    | cons y ys =>
      rw [layout_cons, solidCount_append, solidCount_append, solidCount_spaces (hg p (by simp)),
        solidCount_solid (hs p (by simp)), ← ih (fun q hq => hg q (by simp [hq])) (fun q hq => hs q (by simp [hq])) ys
          (by simpa using hl)]
      show (List.replicate p.2.length y ++ repeated (ps.map fun p => p.2.length) ys).length = _
      simp

/-! ### Operators that leave the characters that are not white space in place -/

/-- The aligner `a` from `s` to `s'` keeps the labels of the characters that are not white space. -/
structure Carry (a : Aligner) (s s' : Str) : Prop where
  input : a.inputLength = s.length
  forward : ∀ ls, ls.length = s.length → ∃ ls', a.transform ls = .ok ls' ∧ ls'.length = s'.length ∧
    solidOf s' ls' = solidOf s ls
  count : solidCount s' = solidCount s
  backward : ∀ zs, uintLabels zs → zs.length = solidCount s → a.inverseTransform (spreadOver s' zs) = .ok (spreadOver s zs)

theorem repeated_uint {ns : List Nat} {ys : List Int} (h : uintLabels ys) : uintLabels (repeated ns ys) := by
  intro x hx
  unfold repeated at hx
  rw [List.mem_flatMap] at hx
  obtain ⟨p, hp, hx⟩ := hx
  rw [List.eq_of_mem_replicate hx]
  exact h _ (List.of_mem_zip hp).2

/-- Tokenizing after such an operator, compared with tokenizing at once. -/
theorem carry_tokens {own own' : Char → Bool} {s s' : Str} {ps ps' : List (Str × Str)} {tail tail' : Str} {a b c : Aligner}
    (hT : TokenizedBy own s ps tail) (hL : TokenLabels b ps tail) (hT' : TokenizedBy own' s' ps' tail')
    (hL' : TokenLabels c ps' tail') (hsame : (ps.map fun p => p.2.length) = ps'.map fun p => p.2.length)
    (hC : Carry a s s') :
    (∀ ls, alignAll [a, c] ls = alignAll [b] ls) ∧ ∀ ys, realignAll [a, c] ys = realignAll [b] ys := by
  have hlen : ps'.length = ps.length := by simpa using congrArg List.length hsame.symm
  constructor
  · intro ls
    show (a.transform ls >>= fun m => c.transform m >>= fun m => .ok m) = (b.transform ls >>= fun m => .ok m)
    by_cases hl : ls.length = s.length
    · obtain ⟨m, m1, m2, m3⟩ := hC.forward ls hl
      rw [m1]
      show (c.transform m >>= fun m => .ok m) = _
      rw [hL'.forward m (by rw [← hT'.text]; exact m2), hL.forward ls (by rw [← hT.text]; exact hl),
        tokenSegs_solid ps' tail' hT'.gaps hT'.solid m (by rw [← hT'.text]; exact m2),
        tokenSegs_solid ps tail hT.gaps hT.solid ls (by rw [← hT.text]; exact hl), ← hT'.text, ← hT.text, m3, hsame]
    · rw [C15_transform_wrong_length a ls (by rw [hC.input]; exact hl),
        C15_transform_wrong_length b ls (by rw [hL.aligned.input, ← hT.text]; exact hl)]
      rfl
  · intro ys
    show (c.inverseTransform ys >>= fun m => a.inverseTransform m >>= fun m => .ok m) = (b.inverseTransform ys >>= fun m => .ok m)
    by_cases hl : ys.length = ps.length
    · by_cases hu : uintLabels ys
      · rw [hL'.backward ys (by omega) hu, hL.backward ys hl hu]
        show (a.inverseTransform _ >>= fun m => .ok m) = _
        rw [charLabels_spread ps' tail' hT'.gaps hT'.solid hT'.last ys (by omega),
          charLabels_spread ps tail hT.gaps hT.solid hT.last ys hl, ← hT'.text, ← hT.text, hsame,
          hC.backward _ (repeated_uint hu) (by
            rw [← hsame, repeated_length ps tail hT.gaps hT.solid hT.last ys hl, ← hT.text])]
      · rw [hL'.overflow ys (by omega) hu, hL.overflow ys hl hu]
        rfl
    · rw [C15_inverse_wrong_length c ys (by rw [hL'.aligned.output]; omega),
        C15_inverse_wrong_length b ys (by rw [hL.aligned.output]; exact hl)]
      rfl

theorem firstNonzeroMode_around (x : Int) : firstNonzeroMode [0, x, 0] = x := by
  by_cases h : x = 0
  · subst h; rfl
  · unfold firstNonzeroMode
    rw [List.filter_cons_of_neg (by simp), List.filter_cons_of_pos (by simpa using h),
      List.filter_cons_of_neg (by simp), List.filter_nil, firstMode_single]

/-! `MergeWhiteSpaceCharacters` -/

theorem merge_forward (b : Bool) (rs : List Str) (h : IsRuns isSpace b rs) (ls : List Int)
    (hl : ls.length = rs.flatten.length) :
    (mapLabels (isRunOf isSpace) (fun _ seg => [firstMode seg]) rs (splitLike rs ls)).length =
        (mergedRuns rs).flatten.length ∧
      solidOf (mergedRuns rs).flatten (mapLabels (isRunOf isSpace) (fun _ seg => [firstMode seg]) rs (splitLike rs ls)) =
        solidOf rs.flatten ls := by
  induction rs generalizing b ls with
  | nil => exact ⟨rfl, by cases ls <;> rfl⟩
  | cons r rs ih =>
    obtain ⟨h1, h2, h3⟩ := h
    rw [List.flatten_cons, List.length_append] at hl
    obtain ⟨i1, i2⟩ := ih (!b) h3 (ls.drop r.length) (by rw [List.length_drop]; omega)
    have hrun := isRunOf_uniform h1 h2
    have hseg : r.length = (ls.take r.length).length := by rw [List.length_take]; omega
    have e : solidOf (r ++ rs.flatten) ls = solidOf r (ls.take r.length) ++ solidOf rs.flatten (ls.drop r.length) := by
      conv => lhs; rw [← List.take_append_drop r.length ls]
      exact solidOf_append _ _ _ _ hseg
    have hstep : mapLabels (isRunOf isSpace) (fun _ seg => [firstMode seg]) (r :: rs) (splitLike (r :: rs) ls) =
        (if b then [firstMode (ls.take r.length)] else ls.take r.length) ++
          mapLabels (isRunOf isSpace) (fun _ seg => [firstMode seg]) rs (splitLike rs (ls.drop r.length)) := by
      simp only [mapLabels, splitLike, List.zip_cons_cons, List.flatMap_cons, hrun]
    have hm : mergedRuns (r :: rs) = (if b then [' '] else r) :: mergedRuns rs := by
      simp only [mergedRuns, List.map_cons, hrun]
    rw [hstep, hm, List.flatten_cons, List.flatten_cons, e]
    cases b with
    | true =>
      simp only [if_true]
      refine ⟨by simp only [List.length_append, List.length_cons, List.length_nil, i1], ?_⟩
      rw [solidOf_append _ _ _ _ (by rfl), i2, solidOf_spaces _ _ h2, solidOf_spaces _ _ (by simp; decide)]
    | false =>
      simp only [Bool.false_eq_true, if_false]
      refine ⟨by simp only [List.length_append, i1, ← hseg], ?_⟩
      rw [solidOf_append _ _ _ _ hseg, i2]

theorem spreadOver_take (x y : Str) (zs : List Int) (h : zs.length = solidCount (x ++ y)) :
    spreadOver (x ++ y) zs = spreadOver x (zs.take (solidCount x)) ++ spreadOver y (zs.drop (solidCount x)) := by
  rw [solidCount_append] at h
  conv => lhs; rw [← List.take_append_drop (solidCount x) zs]
  exact spreadOver_append _ _ _ _ (by rw [List.length_take]; omega)

theorem merge_backward (b : Bool) (rs : List Str) (h : IsRuns isSpace b rs) (zs : List Int)
    (hz : zs.length = solidCount rs.flatten) :
    solidCount (mergedRuns rs).flatten = solidCount rs.flatten ∧
    mapLabels (isRunOf isSpace) (fun r seg => List.replicate r.length (firstMode seg)) rs
        (splitLike (mergedRuns rs) (spreadOver (mergedRuns rs).flatten zs)) = spreadOver rs.flatten zs := by
  induction rs generalizing b zs with
  | nil => exact ⟨rfl, rfl⟩
  | cons r rs ih =>
    obtain ⟨h1, h2, h3⟩ := h
    rw [List.flatten_cons] at hz
    have hrun := isRunOf_uniform h1 h2
    have hm : mergedRuns (r :: rs) = (if b then [' '] else r) :: mergedRuns rs := by
      simp only [mergedRuns, List.map_cons, hrun]
    have hcount : solidCount (if b then [' '] else r) = solidCount r := by
      cases b with
      | true => rw [solidCount_spaces h2]; rfl
      | false => rfl
    have hz' := hz
    rw [solidCount_append] at hz'
    obtain ⟨i1, i2⟩ := ih (!b) h3 (zs.drop (solidCount r)) (by rw [List.length_drop]; omega)
    rw [hm, List.flatten_cons, List.flatten_cons, solidCount_append, solidCount_append, hcount, i1]
    refine ⟨rfl, ?_⟩
    rw [spreadOver_take _ _ _ hz, spreadOver_take _ _ _ (by rw [solidCount_append, hcount, i1]; exact hz'), hcount, ← i2]
    have hlen : (spreadOver (if b then [' '] else r) (zs.take (solidCount r))).length = (if b then [' '] else r).length :=
      spreadOver_length _ _
    simp only [mapLabels, splitLike, List.zip_cons_cons, List.flatMap_cons, hrun]
    rw [List.take_left' hlen, List.drop_left' hlen]
    congr 1
    cases b with
    | true =>
      simp only [if_true]
      rw [spreadOver_spaces [' '] _ (by simp; decide), spreadOver_spaces r _ h2]
      rfl
    | false => rfl

theorem merge_carry (σ : SetOrder) (s : Str) :
    ∃ a, MergeWhiteSpaceCharacters.transform σ s = .ok (mapRuns isSpace (fun _ => [' ']) s, a) ∧
      Carry a s (mapRuns isSpace (fun _ => [' ']) s) := by
  obtain ⟨a, h1, h2, h3, h4, _⟩ := C21_merge σ s
  refine ⟨a, h1, ?_⟩
  obtain ⟨b, _, hr⟩ := runs_isRuns isSpace s
  have hs := runs_flatten isSpace s
  rw [merge_eq_mergedRuns] at *
  refine ⟨h2.input, fun ls hl => ?_, ?_, fun zs _ hz => ?_⟩
  · obtain ⟨f1, f2⟩ := merge_forward b _ hr ls (by rw [hs]; exact hl)
    rw [hs] at f2
    exact ⟨_, h3 ls hl, f1, f2⟩
  · have := (merge_backward b _ hr (List.replicate (solidCount s) 0) (by rw [hs]; simp)).1
    rw [hs] at this
    exact this
  · have := (merge_backward b _ hr zs (by rw [hs]; exact hz)).2
    rw [hs] at this
    rw [h4 _ (spreadOver_length _ _)]
    exact congrArg _ this

/-! `StripWhiteSpaceCharacters` -/

theorem strip_carry (σ : SetOrder) (s : Str) :
    ∃ a, StripWhiteSpaceCharacters.transform σ s = .ok (strip s, a) ∧ Carry a s (strip s) := by
  obtain ⟨a, h1, h2, lead, trail, g1, g2, g3, g4, g5, g6⟩ := C22_strip σ s
  refine ⟨a, h1, ?_⟩
  have hs : s = s.take lead ++ (strip s ++ s.drop (lead + (strip s).length)) := by
    conv => rhs; rw [← g3]
    rw [← List.drop_drop]
    conv => rhs; rhs; rhs; rw [show (List.take (strip s).length (List.drop lead s)).length = (strip s).length by
      rw [List.length_take, List.length_drop]; omega]
    rw [List.take_append_drop, List.take_append_drop]
  have hcount : solidCount s = solidCount (strip s) := by
    conv => lhs; rw [hs]
    rw [solidCount_append, solidCount_append, solidCount_spaces g2, solidCount_spaces g4]
    omega
  refine ⟨h2.input, fun ls hl => ?_, hcount.symm, fun zs _ hz => ?_⟩
  · refine ⟨_, g5 ls hl, by rw [List.length_take, List.length_drop]; omega, ?_⟩
    have e : ls = ls.take lead ++ ((ls.drop lead).take (strip s).length ++ ls.drop (lead + (strip s).length)) := by
      rw [← List.drop_drop, List.take_append_drop, List.take_append_drop]
    conv => rhs; rw [hs, e]
    rw [solidOf_append _ _ _ _ (by rw [List.length_take, List.length_take]; omega), solidOf_spaces _ _ g2, List.nil_append,
      solidOf_append _ _ _ _ (by rw [List.length_take, List.length_drop]; omega), solidOf_spaces _ _ g4, List.append_nil]
  · rw [g6 _ (spreadOver_length _ _)]
    conv => rhs; rw [hs]
    rw [← List.nil_append zs, spreadOver_append _ _ _ _ (by rw [solidCount_spaces g2]; rfl), spreadOver_spaces _ _ g2,
      ← List.append_nil zs, spreadOver_append _ _ _ _ (by rw [hz, hcount]), spreadOver_spaces _ _ g4]
    rw [List.length_take, List.length_drop, List.append_nil, List.nil_append, List.append_assoc,
      show min lead s.length = lead by omega, show s.length - (lead + (strip s).length) = trail by omega]

/-! White space around characters -/

theorem around_forward (valid : Char → Bool) (s : Str) (ls : List Int)
    (hl : ls.length = s.length) :
    ((s.zip ls).flatMap fun p => if valid p.1 then [0, p.2, 0] else [p.2]).length =
        (s.flatMap fun c => if valid c then [' ', c, ' '] else [c]).length ∧
      solidOf (s.flatMap fun c => if valid c then [' ', c, ' '] else [c])
        ((s.zip ls).flatMap fun p => if valid p.1 then [0, p.2, 0] else [p.2]) = solidOf s ls := by
  induction s generalizing ls with
  | nil => exact ⟨rfl, by cases ls <;> rfl⟩
  | cons c s ih =>
    cases ls with
    | nil => simp at hl
    | cons l ls =>
      obtain ⟨i1, i2⟩ := ih ls (by simpa using hl)
      simp only [List.zip_cons_cons, List.flatMap_cons, List.length_append]
      have hsp : isSpace ' ' = true := by decide
      by_cases h : valid c = true
      · rw [if_pos h, if_pos h]
        refine ⟨by simp only [List.length_cons, List.length_nil, i1], ?_⟩
        simp only [List.cons_append, List.nil_append, solidOf, hsp, if_true]
        rw [i2]
      · rw [if_neg h, if_neg h]
        refine ⟨by simp only [List.length_cons, List.length_nil, i1], ?_⟩
        simp only [List.cons_append, List.nil_append, solidOf]
        rw [i2]

theorem around_backward (valid : Char → Bool) (hv : ∀ c, valid c = true → isSpace c = false) (s : Str) (zs : List Int)
    (hz : zs.length = solidCount s) :
    solidCount (s.flatMap fun c => if valid c then [' ', c, ' '] else [c]) = solidCount s ∧
      (segments (s.map fun c => if valid c then 3 else 1)
        (spreadOver (s.flatMap fun c => if valid c then [' ', c, ' '] else [c]) zs)).map firstNonzeroMode = spreadOver s zs := by
  induction s generalizing zs with
  | nil => exact ⟨rfl, rfl⟩
  | cons c s ih =>
    have hsp : isSpace ' ' = true := by decide
    simp only [List.flatMap_cons, List.map_cons]
    have hz' : zs.length = solidCount [c] + solidCount s := by
      rw [hz, ← solidCount_append]; rfl
    by_cases h : valid c = true
    · have hc := hv c h
      have h1 : solidCount [c] = 1 := solidCount_solid (by simpa using hc)
      cases zs with
      | nil => simp only [List.length_nil] at hz'; omega
      | cons z zs =>
        obtain ⟨i1, i2⟩ := ih zs (by simp only [List.length_cons] at hz'; omega)
        rw [if_pos h, if_pos h, solidCount_append, i1]
        constructor
        · rw [show c :: s = [c] ++ s from rfl, solidCount_append, h1]
          simp [solidCount, hsp, hc]
        · simp only [List.cons_append, List.nil_append, spreadOver, hsp, if_true, hc, Bool.false_eq_true, if_false,
            List.headD_cons, List.tail_cons]
          show firstNonzeroMode [0, z, 0] :: (segments _ _).map firstNonzeroMode = _
          rw [firstNonzeroMode_around]
          exact congrArg (z :: ·) i2
    · rw [if_neg h, if_neg h, solidCount_append]
      by_cases hc : isSpace c = true
      · have h1 : solidCount [c] = 0 := solidCount_spaces (by simpa using hc)
        obtain ⟨i1, i2⟩ := ih zs (by omega)
        rw [i1, ← solidCount_append]
        refine ⟨rfl, ?_⟩
        simp only [List.cons_append, List.nil_append, spreadOver, hc, if_true]
        show firstNonzeroMode [0] :: (segments _ _).map firstNonzeroMode = _
        rw [firstNonzeroMode_single]
        exact congrArg ((0 : Int) :: ·) i2
      · have hc : isSpace c = false := by simpa using hc
        have h1 : solidCount [c] = 1 := solidCount_solid (by simpa using hc)
        cases zs with
        | nil => simp only [List.length_nil] at hz'; omega
        | cons z zs =>
          obtain ⟨i1, i2⟩ := ih zs (by simp only [List.length_cons] at hz'; omega)
          rw [i1, ← solidCount_append]
          refine ⟨rfl, ?_⟩
          simp only [List.cons_append, List.nil_append, spreadOver, hc, Bool.false_eq_true, if_false, List.headD_cons, List.tail_cons]
          show firstNonzeroMode [z] :: (segments _ _).map firstNonzeroMode = _
          rw [firstNonzeroMode_single]
          exact congrArg (z :: ·) i2

theorem around_carry (σ : SetOrder) (valid : Char → Bool) (hv : ∀ c, valid c = true → isSpace c = false) (s : Str) :
    ∃ a, AddWhitespaceAroundChar.transform σ valid s =
        .ok (s.flatMap (fun c => if valid c then [' ', c, ' '] else [c]), a) ∧
      Carry a s (s.flatMap fun c => if valid c then [' ', c, ' '] else [c]) := by
  obtain ⟨a, h1, h2, h3, h4, _⟩ := C17_around σ valid s
  refine ⟨a, h1, h2.input, fun ls hl => ?_, ?_, fun zs _ hz => ?_⟩
  · obtain ⟨f1, f2⟩ := around_forward valid s ls hl
    exact ⟨_, h3 ls hl, f1, f2⟩
  · exact (around_backward valid hv s (List.replicate (solidCount s) 0) (by simp)).1
  · rw [h4 _ (spreadOver_length _ _), (around_backward valid hv s zs hz).2]

/-! ### The tokens -/

theorem scanWords_spaces (own : Char → Bool) (r rest cur : Str) (h : ∀ c ∈ r, isSpace c = true) (hr : r ≠ []) :
    scanWords own (r ++ rest) cur = emit cur ++ scanWords own rest [] := by
  induction r generalizing cur with
  | nil => exact absurd rfl hr
  | cons c r ih =>
    show (if isSpace c then emit cur ++ scanWords own (r ++ rest) [] else _) = _
    rw [if_pos (h c (by simp))]
    cases r with
    | nil => rfl
    | cons d r =>
      rw [ih [] (fun d hd => h d (by simp [hd])) (by simp)]
      rfl

theorem scanWords_prefix (own : Char → Bool) (r x y : Str) (h : ∀ cur, scanWords own x cur = scanWords own y cur) (cur : Str) :
    scanWords own (r ++ x) cur = scanWords own (r ++ y) cur := by
  induction r generalizing cur with
  | nil => exact h cur
  | cons c r ih =>
    simp only [List.cons_append, scanWords]
    rw [ih, ih]

theorem scanWords_merge (own : Char → Bool) (b : Bool) (rs : List Str) (h : IsRuns isSpace b rs) (cur : Str) :
    scanWords own (mergedRuns rs).flatten cur = scanWords own rs.flatten cur := by
  induction rs generalizing b cur with
  | nil => rfl
  | cons r rs ih =>
    obtain ⟨h1, h2, h3⟩ := h
    have hm : mergedRuns (r :: rs) = (if b then [' '] else r) :: mergedRuns rs := by
      simp only [mergedRuns, List.map_cons, isRunOf_uniform h1 h2]
    rw [hm, List.flatten_cons, List.flatten_cons]
    cases b with
    | true =>
      simp only [if_true]
      rw [scanWords_spaces own _ _ _ h2 h1, scanWords_spaces own [' '] _ _ (by simp; decide) (by simp), ih _ h3]
    | false =>
      simp only [Bool.false_eq_true, if_false]
      exact scanWords_prefix own r _ _ (fun cur => ih _ h3 cur) cur

theorem scanWords_strip (own : Char → Bool) (a m b : Str) (ha : ∀ c ∈ a, isSpace c = true) (hb : ∀ c ∈ b, isSpace c = true) :
    scanWords own (a ++ m ++ b) [] = scanWords own m [] := by
  have h1 : ∀ x, scanWords own (a ++ x) [] = scanWords own x [] := by
    intro x
    by_cases h : a = []
    · rw [h]; rfl
    · rw [scanWords_spaces own _ _ _ ha h]; rfl
  rw [List.append_assoc, h1]
  have h2 : ∀ cur, scanWords own b cur = scanWords own [] cur := by
    intro cur
    by_cases h : b = []
    · rw [h]
    · have := scanWords_spaces own b [] cur hb h
      rw [List.append_nil] at this
      rw [this]
      show emit cur ++ emit [] = emit cur
      simp [emit]
  rw [scanWords_prefix own m b [] h2, List.append_nil]

theorem scanWords_around (own valid : Char → Bool) (hv : ∀ c, valid c = true → isSpace c = false) (s cur : Str) :
    scanWords own (s.flatMap fun c => if valid c then [' ', c, ' '] else [c]) cur =
      scanWords (fun c => own c || valid c) s cur := by
  induction s generalizing cur with
  | nil => rfl
  | cons c s ih =>
    have hsp : isSpace ' ' = true := by decide
    rw [List.flatMap_cons]
    by_cases h : valid c = true
    · have hc := hv c h
      rw [if_pos h]
      simp only [List.cons_append, List.nil_append, scanWords, hsp, if_true, hc, Bool.false_eq_true, if_false, h, Bool.or_true,
        ih]
      by_cases ho : own c = true
      · rw [if_pos ho]; simp [emit]
      · rw [if_neg ho]; simp [emit]
    · rw [if_neg h]
      have h : valid c = false := by simpa using h
      simp only [List.cons_append, List.nil_append, scanWords, h, Bool.or_false, ih]

/-- A tokenizer that cuts at white space and around the characters `own`. -/
def Cutter (own : Char → Bool) (T : Str → Res (List Str × Aligner)) : Prop :=
  ∀ s, ∃ a ps tail, T s = .ok (ps.map Prod.snd, a) ∧ TokenizedBy own s ps tail ∧ TokenLabels a ps tail

theorem cutter_words {own : Char → Bool} {s : Str} {ps : List (Str × Str)} {tail : Str} (h : TokenizedBy own s ps tail) :
    ps.map Prod.snd = scanWords own s [] := by
  obtain ⟨ps', tail', h1, h2⟩ := scanWords_spec own s [] (by simp) (by simp)
  rw [List.nil_append] at h1
  rw [(C40_cuts_unique _ _ _ _ _ _ h h1).1, h2]

theorem made_simple {env : Env} {name : String} {i o : SeqType} {run : Seq → Res (Seq × Aligner)} {op : Op}
    (hc : (Builtin.registry env).get name.toList = .ok (Builtin.simple name i o run)) (h : Made env name op) :
    op = ⟨Builtin.simple name i o run, [], run⟩ := by
  obtain ⟨args, kwargs, h⟩ := h
  by_cases he : args = [] ∧ kwargs = []
  · obtain ⟨rfl, rfl⟩ := he
    exact Except.ok.inj (h.symm.trans (create_simple hc).1)
  · have := (create_simple hc).2 args kwargs (by
      by_cases h1 : args = []
      · exact Or.inr fun h2 => he ⟨h1, h2⟩
      · exact Or.inl h1)
    rw [this] at h
    cases h

theorem strOp_transform {name : String} {f : Str → Res (Str × Aligner)} {s out : Str} {a : Aligner} (h : f s = .ok (out, a)) :
    Op.transform ⟨Builtin.simple name .str .str (strOp f), [], strOp f⟩ (.str s) = .ok (.str out, a) := by
  show ((strOp f (.str s)) >>= _) = _
  show ((f s >>= _) >>= _) = _
  rw [h]
  rfl

theorem tokOp_transform {name : String} {f : Str → Res (List Str × Aligner)} {s : Str} {out : List Str} {a : Aligner}
    (h : f s = .ok (out, a)) :
    Op.transform ⟨Builtin.simple name .str .list (tokOp f), [], tokOp f⟩ (.str s) = .ok (.list (out.map Tok.str), a) := by
  show ((tokOp f (.str s)) >>= _) = _
  show ((f s >>= _) >>= _) = _
  rw [h]
  rfl

theorem run_one {x : Op} {s t : Seq} {a : Aligner} (h : x.transform s = .ok (t, a)) :
    Pipe.transformSequence ⟨[x], []⟩ s = .ok (t, [a], [s, t]) := by
  show (x.transform s >>= _) = _
  rw [h]
  rfl

theorem run_two {x y : Op} {s t u : Seq} {a b : Aligner} (h : x.transform s = .ok (t, a)) (h' : y.transform t = .ok (u, b)) :
    Pipe.transformSequence ⟨[x, y], []⟩ s = .ok (u, [a, b], [s, t, u]) := by
  show (x.transform s >>= fun r => y.transform r.1 >>= _) = _
  rw [h]
  show (y.transform t >>= _) = _
  rw [h']
  rfl

theorem run_list {x : Op} {xs : List Op} (h : x.cls.inputType = .str) (l : List Tok) :
    Pipe.transformSequence ⟨x :: xs, []⟩ (.list l) = .error .typeError := by
  show (x.transform (.list l) >>= _) = _
  have : x.transform (.list l) = .error .typeError := by
    unfold Op.transform
    rw [if_pos (by rw [h]; exact fun h => nomatch h)]
  rw [this]
  rfl

/-- A step before a tokenizer that changes white space only, against a tokenizer alone. -/
theorem carry_interchange {own own' : Char → Bool} {T T' : Str → Res (List Str × Aligner)} {N : Str → Res (Str × Aligner)}
    (hT : Cutter own T) (hT' : Cutter own' T')
    (hN : ∀ s, ∃ s' a, N s = .ok (s', a) ∧ Carry a s s' ∧ scanWords own' s' [] = scanWords own s [])
    {n1 n2 n3 : String} :
    Interchangeable [⟨Builtin.simple n1 .str .str (strOp N), [], strOp N⟩, ⟨Builtin.simple n2 .str .list (tokOp T'), [], tokOp T'⟩]
      [⟨Builtin.simple n3 .str .list (tokOp T), [], tokOp T⟩] := by
  intro s
  cases s with
  | list l => rw [run_list rfl, run_list rfl]; exact .error _
  | str s =>
    obtain ⟨s', a, h1, h2, h3⟩ := hN s
    obtain ⟨b, ps, tail, b1, b2, b3⟩ := hT s
    obtain ⟨c, ps', tail', c1, c2, c3⟩ := hT' s'
    rw [run_two (strOp_transform h1) (tokOp_transform c1), run_one (tokOp_transform b1)]
    have hw : ps'.map Prod.snd = ps.map Prod.snd := by rw [cutter_words c2, cutter_words b2, h3]
    rw [hw]
    have hlen : (ps.map fun p => p.2.length) = ps'.map fun p => p.2.length := by
      have := congrArg (List.map List.length) hw
      rw [List.map_map, List.map_map] at this
      exact this.symm
    obtain ⟨f, g⟩ := carry_tokens b2 b3 c2 c3 hlen h2
    exact .ok _ _ _ _ _ f g

theorem made_tokenizer {env : Env} {name : String} {t : Op}
    (hn : name = "WhiteSpaceTokenizer" ∨ name = "EngTokenizer" ∨ name = "ZhCharTokenizer") (h : Made env name t) :
    ∃ own T n, Cutter own T ∧ t = ⟨Builtin.simple n .str .list (tokOp T), [], tokOp T⟩ := by
  rcases hn with rfl | rfl | rfl
  · exact ⟨_, _, _, C39_C42_whitespace env.σ, made_simple rfl h⟩
  · exact ⟨_, _, _, C40_C42_eng env.σ env.u, made_simple rfl h⟩
  · exact ⟨_, _, _, C40_C42_zh env.σ env.u, made_simple rfl h⟩

/-- C76: normalising white space before tokenizing makes no difference. -/
theorem C76_white_space (env : Env) (name : String) (w t : Op)
    (hw : Made env "MergeWhiteSpaceCharacters" w ∨ Made env "StripWhiteSpaceCharacters" w)
    (hn : name = "WhiteSpaceTokenizer" ∨ name = "EngTokenizer" ∨ name = "ZhCharTokenizer") (ht : Made env name t) :
    Interchangeable [w, t] [t] := by
  obtain ⟨own, T, n, hT, rfl⟩ := made_tokenizer hn ht
  rcases hw with hw | hw
  · rw [made_simple (env := env) rfl hw]
    refine carry_interchange hT hT fun s => ?_
    obtain ⟨a, h1, h2⟩ := merge_carry env.σ s
    refine ⟨_, a, h1, h2, ?_⟩
    obtain ⟨b, _, hr⟩ := runs_isRuns isSpace s
    rw [merge_eq_mergedRuns, scanWords_merge own b _ hr, runs_flatten]
  · rw [made_simple (env := env) rfl hw]
    refine carry_interchange hT hT fun s => ?_
    obtain ⟨a, h1, h2⟩ := strip_carry env.σ s
    refine ⟨_, a, h1, h2, ?_⟩
    obtain ⟨⟨x, y, e, hx, hy⟩, _⟩ := (C22_strip_form s (strip s)).mp rfl
    conv => rhs; rw [e]
    exact (scanWords_strip own x (strip s) y hx hy).symm

theorem isPunctuation_solid {u : Unicode} (hp : ∀ c, u.isCatP c = true → isSpace c = false) (c : Char)
    (h : isPunctuation u c = true) : isSpace c = false := by
  rcases (C17_punctuation u c).mp h with h | h
  · have hall : ∀ d ∈ asciiPunctuation, isSpace d = false := by decide
    exact hall c h
  · exact hp c h

/-- C76: `EngTokenizer` is `AddWhitespaceAroundPunctuation` followed by `WhiteSpaceTokenizer`, labels included. -/
theorem C76_eng (env : Env) (hp : ∀ c, env.u.isCatP c = true → isSpace c = false) (p w e : Op)
    (h1 : Made env "AddWhitespaceAroundPunctuation" p) (h2 : Made env "WhiteSpaceTokenizer" w)
    (h3 : Made env "EngTokenizer" e) : Interchangeable [p, w] [e] := by
  rw [made_simple (env := env) rfl h1, made_simple (env := env) rfl h2, made_simple (env := env) rfl h3]
  refine carry_interchange (C40_C42_eng env.σ env.u) (C39_C42_whitespace env.σ) fun s => ?_
  obtain ⟨a, g1, g2⟩ := around_carry env.σ (isPunctuation env.u) (isPunctuation_solid hp) s
  refine ⟨_, a, g1, g2, ?_⟩
  rw [scanWords_around _ _ (isPunctuation_solid hp)]
  congr 1

/-- C76: `ZhCharTokenizer` is `AddWhitespaceAroundCJK` followed by `EngTokenizer`, labels included. -/
theorem C76_zh (env : Env) (c e z : Op) (h1 : Made env "AddWhitespaceAroundCJK" c) (h2 : Made env "EngTokenizer" e)
    (h3 : Made env "ZhCharTokenizer" z) : Interchangeable [c, e] [z] := by
  rw [made_simple (env := env) rfl h1, made_simple (env := env) rfl h2, made_simple (env := env) rfl h3]
  refine carry_interchange (C40_C42_zh env.σ env.u) (C40_C42_eng env.σ env.u) fun s => ?_
  obtain ⟨a, g1, g2⟩ := around_carry env.σ isCJK isCJK_not_space s
  refine ⟨_, a, g1, g2, ?_⟩
  rw [scanWords_around _ _ isCJK_not_space]

/-- C76: white space around CJK characters and punctuation, then `WhiteSpaceTokenizer`. -/
theorem C76_zh_words (env : Env) (hp : ∀ c, env.u.isCatP c = true → isSpace c = false) (c p w z : Op)
    (h1 : Made env "AddWhitespaceAroundCJK" c) (h2 : Made env "AddWhitespaceAroundPunctuation" p)
    (h3 : Made env "WhiteSpaceTokenizer" w) (h4 : Made env "ZhCharTokenizer" z) : Interchangeable [c, p, w] [z] := by
  have he : Made env "EngTokenizer" _ := ⟨[], [], (create_simple rfl).1⟩
  exact C76_equivalence.2.2 _ _ _ (C76_replace _ _ [c] [] (C76_eng env hp p w _ h2 h3 he)) (C76_zh env c _ z h1 he h4)

/-- C76: the white space that `AddWhitespaceAroundPunctuation` and `AddWhitespaceAroundCJK` add makes no difference
to a tokenizer that cuts there anyway. -/
theorem C76_around (env : Env) (hp : ∀ c, env.u.isCatP c = true → isSpace c = false) (c p e z : Op)
    (h1 : Made env "AddWhitespaceAroundCJK" c) (h2 : Made env "AddWhitespaceAroundPunctuation" p)
    (h3 : Made env "EngTokenizer" e) (h4 : Made env "ZhCharTokenizer" z) :
    Interchangeable [p, e] [e] ∧ Interchangeable [p, z] [z] ∧ Interchangeable [c, z] [z] := by
  rw [made_simple (env := env) rfl h1, made_simple (env := env) rfl h2, made_simple (env := env) rfl h3,
    made_simple (env := env) rfl h4]
  refine ⟨carry_interchange (C40_C42_eng env.σ env.u) (C40_C42_eng env.σ env.u) fun s => ?_,
    carry_interchange (C40_C42_zh env.σ env.u) (C40_C42_zh env.σ env.u) fun s => ?_,
    carry_interchange (C40_C42_zh env.σ env.u) (C40_C42_zh env.σ env.u) fun s => ?_⟩
  · obtain ⟨a, g1, g2⟩ := around_carry env.σ (isPunctuation env.u) (isPunctuation_solid hp) s
    refine ⟨_, a, g1, g2, ?_⟩
    rw [scanWords_around _ _ (isPunctuation_solid hp)]
    congr 1
    funext x
    simp
  · obtain ⟨a, g1, g2⟩ := around_carry env.σ (isPunctuation env.u) (isPunctuation_solid hp) s
    refine ⟨_, a, g1, g2, ?_⟩
    rw [scanWords_around _ _ (isPunctuation_solid hp)]
    congr 1
    funext x
    cases isPunctuation env.u x <;> cases isCJK x <;> rfl
  · obtain ⟨a, g1, g2⟩ := around_carry env.σ isCJK isCJK_not_space s
    refine ⟨_, a, g1, g2, ?_⟩
    rw [scanWords_around _ _ isCJK_not_space]
    congr 1
    funext x
    cases isPunctuation env.u x <;> cases isCJK x <;> rfl

/-! ### The order of operators that change texts -/

theorem pair_same {a b c d : Aligner} {n k : Nat} (ha : a.inputLength = n) (hc : c.inputLength = n) (hb : b.outputLength = k)
    (hd : d.outputLength = k)
    (hf : ∀ ls, ls.length = n → (a.transform ls >>= b.transform) = (c.transform ls >>= d.transform))
    (hg : ∀ ys, ys.length = k → (b.inverseTransform ys >>= a.inverseTransform) = (d.inverseTransform ys >>= c.inverseTransform)) :
    (∀ ls, alignAll [a, b] ls = alignAll [c, d] ls) ∧ ∀ ys, realignAll [a, b] ys = realignAll [c, d] ys := by
  have key : ∀ (f g : List Int → Res (List Int)) (ls : List Int),
      (f ls >>= fun m => g m >>= fun m => .ok m) = (f ls >>= g) := by
    intro f g ls
    cases f ls with
    | error e => rfl
    | ok m =>
      show (g m >>= fun m => .ok m) = g m
      cases g m <;> rfl
  constructor
  · intro ls
    show (a.transform ls >>= fun m => b.transform m >>= fun m => .ok m) =
      (c.transform ls >>= fun m => d.transform m >>= fun m => .ok m)
    rw [key, key]
    by_cases hl : ls.length = n
    · exact hf ls hl
    · rw [C15_transform_wrong_length a ls (by rw [ha]; exact hl), C15_transform_wrong_length c ls (by rw [hc]; exact hl)]
      rfl
  · intro ys
    show (b.inverseTransform ys >>= fun m => a.inverseTransform m >>= fun m => .ok m) =
      (d.inverseTransform ys >>= fun m => c.inverseTransform m >>= fun m => .ok m)
    rw [key, key]
    by_cases hl : ys.length = k
    · exact hg ys hl
    · rw [C15_inverse_wrong_length b ys (by rw [hb]; exact hl), C15_inverse_wrong_length d ys (by rw [hd]; exact hl)]
      rfl

theorem swap_interchange {X Y Z W : Str → Res (Str × Aligner)} {n1 n2 n3 n4 : String}
    (h : ∀ s, ∃ t t' out a b c d, X s = .ok (t, a) ∧ Y t = .ok (out, b) ∧ Z s = .ok (t', c) ∧ W t' = .ok (out, d) ∧
      (∀ ls, alignAll [a, b] ls = alignAll [c, d] ls) ∧ ∀ ys, realignAll [a, b] ys = realignAll [c, d] ys) :
    Interchangeable [⟨Builtin.simple n1 .str .str (strOp X), [], strOp X⟩, ⟨Builtin.simple n2 .str .str (strOp Y), [], strOp Y⟩]
      [⟨Builtin.simple n3 .str .str (strOp Z), [], strOp Z⟩, ⟨Builtin.simple n4 .str .str (strOp W), [], strOp W⟩] := by
  intro s
  cases s with
  | list l => rw [run_list rfl, run_list rfl]; exact .error _
  | str s =>
    obtain ⟨t, t', out, a, b, c, d, h1, h2, h3, h4, h5, h6⟩ := h s
    rw [run_two (strOp_transform h1) (strOp_transform h2), run_two (strOp_transform h3) (strOp_transform h4)]
    exact .ok _ _ _ _ _ h5 h6

/-- Labels of the characters of a text, cut into `rs`, carried to the merged text ... -/
def mergeFwd (rs : List Str) (ls : List Int) : List Int :=
  mapLabels (isRunOf isSpace) (fun _ seg => [firstMode seg]) rs (splitLike rs ls)

/-- ... and back. -/
def mergeBwd (rs : List Str) (ls : List Int) : List Int :=
  mapLabels (isRunOf isSpace) (fun r seg => List.replicate r.length (firstMode seg)) rs (splitLike (mergedRuns rs) ls)

theorem mergeFwd_cons (r : Str) (rs : List Str) (ls : List Int) : mergeFwd (r :: rs) ls =
    (if isRunOf isSpace r then [firstMode (ls.take r.length)] else ls.take r.length) ++ mergeFwd rs (ls.drop r.length) := by
  simp only [mergeFwd, mapLabels, splitLike, List.zip_cons_cons, List.flatMap_cons]

theorem mergeBwd_cons (r : Str) (rs : List Str) (ls : List Int) : mergeBwd (r :: rs) ls =
    (if isRunOf isSpace r then List.replicate r.length (firstMode (ls.take 1)) else ls.take r.length) ++
      mergeBwd rs (ls.drop (if isRunOf isSpace r then 1 else r.length)) := by
  unfold mergeBwd
  have : mergedRuns (r :: rs) = (if isRunOf isSpace r then [' '] else r) :: mergedRuns rs := rfl
  rw [this]
  simp only [mapLabels, splitLike, List.zip_cons_cons, List.flatMap_cons]
  split <;> rfl

theorem mergeFwd_append (x y : List Str) (ls : List Int) (hl : ls.length = (x ++ y).flatten.length) :
    mergeFwd (x ++ y) ls = mergeFwd x (ls.take x.flatten.length) ++ mergeFwd y (ls.drop x.flatten.length) := by
  induction x generalizing ls with
  | nil => simp [mergeFwd, mapLabels, splitLike]
  | cons r x ih =>
    rw [List.cons_append, List.flatten_cons, List.length_append] at hl
    rw [List.cons_append, mergeFwd_cons, mergeFwd_cons, ih _ (by rw [List.length_drop]; omega), List.flatten_cons,
      List.length_append, List.take_take, Nat.min_eq_left (by omega), List.append_assoc, List.drop_drop]
    congr 3
    rw [List.drop_take]
    congr 1
    omega

theorem mergeBwd_append (x y : List Str) (ls : List Int) (hl : ls.length = (mergedRuns (x ++ y)).flatten.length)
    (hne : ∀ r ∈ x, r ≠ []) :
    mergeBwd (x ++ y) ls = mergeBwd x (ls.take (mergedRuns x).flatten.length) ++
      mergeBwd y (ls.drop (mergedRuns x).flatten.length) := by
  induction x generalizing ls with
  | nil => simp [mergeBwd, mapLabels, splitLike, mergedRuns]
  | cons r x ih =>
    have e : ∀ z, mergedRuns (r :: z) = (if isRunOf isSpace r then [' '] else r) :: mergedRuns z := fun _ => rfl
    rw [List.cons_append, e, List.flatten_cons, List.length_append] at hl
    have hr := List.length_pos_iff.mpr (hne r (by simp))
    rw [List.cons_append, mergeBwd_cons, mergeBwd_cons, e, List.flatten_cons, List.length_append]
    by_cases h : isRunOf isSpace r = true
    · simp only [h, if_true, List.length_cons, List.length_nil] at hl ⊢
      rw [ih _ (by rw [List.length_drop]; omega) (fun q hq => hne q (by simp [hq])), List.take_take,
        Nat.min_eq_left (by omega), List.append_assoc, List.drop_drop, List.drop_take]
      congr 4
      omega
    · simp only [h, Bool.false_eq_true, if_false] at hl ⊢
      rw [ih _ (by rw [List.length_drop]; omega) (fun q hq => hne q (by simp [hq])), List.take_take,
        Nat.min_eq_left (by omega), List.append_assoc, List.drop_drop, List.drop_take]
      congr 4
      omega

theorem merge_exact (σ : SetOrder) (s : Str) :
    ∃ a, MergeWhiteSpaceCharacters.transform σ s = .ok ((mergedRuns (runs isSpace s)).flatten, a) ∧
      a.inputLength = s.length ∧ a.outputLength = (mergedRuns (runs isSpace s)).flatten.length ∧
      (∀ ls, ls.length = s.length → a.transform ls = .ok (mergeFwd (runs isSpace s) ls)) ∧
      (∀ ls, ls.length = (mergedRuns (runs isSpace s)).flatten.length →
        a.inverseTransform ls = .ok (mergeBwd (runs isSpace s) ls)) := by
  obtain ⟨a, h1, h2, h3, h4, _⟩ := C21_merge σ s
  rw [merge_eq_mergedRuns] at *
  exact ⟨a, h1, h2.input, h2.output, h3, h4⟩

/-- The cut of a text at its margins is unique, if anything is left. -/
theorem margin_unique {s m x x' y y' : Str} (hm : ∀ c ∈ m.head?, isSpace c = false) (hne : m ≠ [])
    (h : s = x ++ m ++ y) (h' : s = x' ++ m ++ y') (hx : ∀ c ∈ x, isSpace c = true) (hx' : ∀ c ∈ x', isSpace c = true) :
    x = x' := by
  have key : ∀ z w, (∀ c ∈ z, isSpace c = true) → s = z ++ m ++ w → s.takeWhile isSpace = z := by
    intro z w hz e
    obtain ⟨c, m', rfl⟩ := List.exists_cons_of_ne_nil hne
    rw [e, List.append_assoc, List.takeWhile_append_of_pos hz]
    have : isSpace c = false := hm c (by simp)
    rw [List.cons_append, List.takeWhile_cons_of_neg (by simp [this]), List.append_nil]
  rw [← key x y hx h, ← key x' y' hx' h']

theorem strip_exact (σ : SetOrder) (s : Str) :
    ∃ a, StripWhiteSpaceCharacters.transform σ s = .ok (strip s, a) ∧ a.inputLength = s.length ∧
      a.outputLength = (strip s).length ∧ ∀ x y, s = x ++ strip s ++ y → (∀ c ∈ x, isSpace c = true) →
        (∀ ls, ls.length = s.length → a.transform ls = .ok ((ls.drop x.length).take (strip s).length)) ∧
        (∀ ls, ls.length = (strip s).length →
          a.inverseTransform ls = .ok (List.replicate x.length 0 ++ ls ++ List.replicate y.length 0)) := by
  obtain ⟨a, h1, h2, lead, trail, g1, g2, g3, g4, g5, g6⟩ := C22_strip σ s
  refine ⟨a, h1, h2.input, h2.output, fun x y e hx => ?_⟩
  have hlen := congrArg List.length e
  rw [List.length_append, List.length_append] at hlen
  by_cases hm : strip s = []
  · rw [hm] at g5 g6 g1 hlen ⊢
    simp only [List.length_nil, List.take_zero] at g5 g6 g1 hlen ⊢
    refine ⟨g5, fun ls hl => ?_⟩
    have : ls = [] := List.eq_nil_of_length_eq_zero hl
    subst this
    rw [g6 [] rfl, List.append_nil, List.append_nil, List.replicate_append_replicate, List.replicate_append_replicate]
    congr 2
    omega
  · have hs : s = s.take lead ++ strip s ++ s.drop (lead + (strip s).length) := by
      conv => rhs; rw [← g3]
      rw [← List.drop_drop]
      conv => rhs; rhs; rw [show (List.take (strip s).length (List.drop lead s)).length = (strip s).length by
        rw [List.length_take, List.length_drop]; omega]
      rw [List.append_assoc, List.take_append_drop, List.take_append_drop]
    have hx' := margin_unique ((C22_strip_form s _).mp rfl).2.1 hm e hs hx g2
    have h1 : x.length = lead := by rw [hx', List.length_take]; omega
    have h2 : y.length = trail := by omega
    rw [h1, h2]
    exact ⟨g5, g6⟩

theorem isRuns_snoc (p : Char → Bool) (b : Bool) (rs : List Str) (r x : Str) (d : Bool) (h : IsRuns p b (rs ++ [r]))
    (hr : Uniform p d r) (hx : x ≠ []) (hxu : Uniform p (!d) x) : IsRuns p b (rs ++ [r, x]) := by
  induction rs generalizing b with
  | nil =>
    obtain ⟨h1, h2, _⟩ := h
    have hb : b = d := by
      obtain ⟨c, r, rfl⟩ := List.exists_cons_of_ne_nil h1
      rw [← h2 c (by simp), ← hr c (by simp)]
    subst hb
    exact ⟨h1, h2, hx, hxu, trivial⟩
  | cons q rs ih =>
    obtain ⟨h1, h2, h3⟩ := h
    exact ⟨h1, h2, ih _ h3⟩

/-- One run, if there is anything. -/
def oneRun (x : Str) : List Str := if x = [] then [] else [x]

theorem oneRun_flatten (x : Str) : (oneRun x).flatten = x := by
  unfold oneRun
  split
  next h => rw [h]; rfl
  next => simp

theorem runs_margins (x m y : Str) (hx : ∀ c ∈ x, isSpace c = true) (hy : ∀ c ∈ y, isSpace c = true)
    (h1 : ∀ c ∈ m.head?, isSpace c = false) (h2 : ∀ c ∈ m.getLast?, isSpace c = false) (hm : m ≠ []) :
    runs isSpace (x ++ m ++ y) = oneRun x ++ runs isSpace m ++ oneRun y := by
  have hr : IsRuns isSpace false (runs isSpace m) := by
    obtain ⟨b, hb, hr⟩ := runs_isRuns isSpace m
    obtain ⟨c, m', rfl⟩ := List.exists_cons_of_ne_nil hm
    have := hb c (by simp)
    rw [h1 c (by simp)] at this
    rw [this]
    exact hr
  have hry : IsRuns isSpace false (runs isSpace m ++ oneRun y) := by
    unfold oneRun
    split
    · rw [List.append_nil]; exact hr
    next hy0 =>
      have hne : runs isSpace m ≠ [] := by
        intro h
        have := runs_flatten isSpace m
        rw [h] at this
        exact hm this.symm
      have hd : runs isSpace m = (runs isSpace m).dropLast ++ [(runs isSpace m).getLast hne] :=
        (List.dropLast_append_getLast hne).symm
      rw [hd, List.append_assoc]
      refine isRuns_snoc isSpace false _ _ y false (hd ▸ hr) ?_ hy0 hy
      have hmem : (runs isSpace m).getLast hne ∈ runs isSpace m := List.getLast_mem hne
      have huni : ∃ d, Uniform isSpace d ((runs isSpace m).getLast hne) ∧ (runs isSpace m).getLast hne ≠ [] := by
        clear h1 h2 hd
        have : ∀ (b : Bool) (rs : List Str), IsRuns isSpace b rs → ∀ r ∈ rs, ∃ d, Uniform isSpace d r ∧ r ≠ [] := by
          intro b rs
          induction rs generalizing b with
          | nil => intro _ r hr; simp at hr
          | cons q rs ih =>
            intro h r hr
            rcases List.mem_cons.mp hr with rfl | hr
            · exact ⟨b, h.2.1, h.1⟩
            · exact ih _ h.2.2 r hr
        exact this _ _ hr _ hmem
      obtain ⟨d, hd1, hd2⟩ := huni
      have hlast : m.getLast? = ((runs isSpace m).getLast hne).getLast? := by
        conv => lhs; rw [← runs_flatten isSpace m, hd]
        rw [List.flatten_append, List.flatten_singleton, List.getLast?_append]
        cases e : ((runs isSpace m).getLast hne).getLast? with
        | none => exact absurd (List.getLast?_eq_none_iff.mp e) hd2
        | some z => simp
      obtain ⟨z, hz⟩ : ∃ z, ((runs isSpace m).getLast hne).getLast? = some z := by
        cases e : ((runs isSpace m).getLast hne).getLast? with
        | none => exact absurd (List.getLast?_eq_none_iff.mp e) hd2
        | some z => exact ⟨z, rfl⟩
      have hz1 := h2 z (by rw [hlast, hz]; rfl)
      have hz2 := hd1 z (List.mem_of_getLast? hz)
      rw [hz1] at hz2
      rw [hz2]
      exact hd1
  have hall : ∃ b, IsRuns isSpace b (oneRun x ++ (runs isSpace m ++ oneRun y)) := by
    unfold oneRun at hry ⊢
    by_cases hx0 : x = []
    · rw [if_pos hx0]; exact ⟨false, hry⟩
    · rw [if_neg hx0]; exact ⟨true, hx0, hx, hry⟩
  obtain ⟨b, hall⟩ := hall
  have := isRuns_unique isSpace b _ hall
  rw [List.flatten_append, List.flatten_append, oneRun_flatten, oneRun_flatten, runs_flatten] at this
  rw [List.append_assoc, List.append_assoc]
  exact this

/-- One space, if there is anything. -/
def oneSpace (x : Str) : Str := if x = [] then [] else [' ']

theorem oneRun_merged (x : Str) (hx : ∀ c ∈ x, isSpace c = true) :
    (mergedRuns (oneRun x)).flatten = oneSpace x := by
  unfold oneRun oneSpace mergedRuns
  by_cases h : x = []
  · rw [if_pos h, if_pos h]; rfl
  · rw [if_neg h, if_neg h]
    obtain ⟨c, x, rfl⟩ := List.exists_cons_of_ne_nil h
    have : isRunOf isSpace (c :: x) = true := hx c (by simp)
    simp [this]

theorem mergeBwd_oneRun (x : Str) (hx : ∀ c ∈ x, isSpace c = true) :
    mergeBwd (oneRun x) (List.replicate (oneSpace x).length 0) = List.replicate x.length 0 := by
  unfold oneRun oneSpace
  by_cases h : x = []
  · rw [if_pos h, if_pos h, h]; rfl
  · rw [if_neg h, if_neg h]
    obtain ⟨c, x, rfl⟩ := List.exists_cons_of_ne_nil h
    have : isRunOf isSpace (c :: x) = true := hx c (by simp)
    rw [mergeBwd_cons, this]
    show List.replicate _ (firstMode [0]) ++ mergeBwd [] _ = _
    rw [firstMode_single]
    show _ ++ [] = _
    rw [List.append_nil]

theorem mergeFwd_length (b : Bool) (rs : List Str) (h : IsRuns isSpace b rs) (ls : List Int) (hl : ls.length = rs.flatten.length) :
    (mergeFwd rs ls).length = (mergedRuns rs).flatten.length := (merge_forward b rs h ls hl).1

theorem head_merged (b : Bool) (rs : List Str) (h : IsRuns isSpace b rs) (hf : ∀ c ∈ rs.flatten.head?, isSpace c = false) :
    ∀ c ∈ (mergedRuns rs).flatten.head?, isSpace c = false := by
  cases rs with
  | nil => exact hf
  | cons r rs =>
    obtain ⟨h1, h2, _⟩ := h
    obtain ⟨d, r, rfl⟩ := List.exists_cons_of_ne_nil h1
    have hd : isSpace d = false := hf d (by simp)
    have hrun : isRunOf isSpace (d :: r) = false := hd
    intro c hc
    have : mergedRuns ((d :: r) :: rs) = (d :: r) :: mergedRuns rs := by
      simp only [mergedRuns, List.map_cons, hrun, Bool.false_eq_true, if_false]
    rw [this, List.flatten_cons, List.cons_append, List.head?_cons] at hc
    rw [← Option.some.inj hc]
    exact hd

theorem last_merged (b : Bool) (rs : List Str) (h : IsRuns isSpace b rs) (hf : ∀ c ∈ rs.flatten.getLast?, isSpace c = false) :
    ∀ c ∈ (mergedRuns rs).flatten.getLast?, isSpace c = false := by
  induction rs generalizing b with
  | nil => exact hf
  | cons r rs ih =>
    obtain ⟨h1, h2, h3⟩ := h
    have hm : mergedRuns (r :: rs) = (if b then [' '] else r) :: mergedRuns rs := by
      simp only [mergedRuns, List.map_cons, isRunOf_uniform h1 h2]
    rw [hm, List.flatten_cons]
    rw [List.flatten_cons] at hf
    cases rs with
    | nil =>
      simp only [mergedRuns, List.map_nil, List.flatten_nil, List.append_nil] at hf ⊢
      cases b with
      | true =>
        exfalso
        have := List.getLast?_eq_some_getLast h1
        have hc := hf _ (by rw [this]; rfl)
        rw [h2 _ (List.getLast_mem h1)] at hc
        cases hc
      | false => exact hf
    | cons q rs =>
      have hne : (q :: rs).flatten ≠ [] := by
        rw [List.flatten_cons]
        exact fun h => h3.1 (List.append_eq_nil_iff.mp h).1
      have hne' : (mergedRuns (q :: rs)).flatten ≠ [] := by
        have : mergedRuns (q :: rs) = (if !b then [' '] else q) :: mergedRuns rs := by
          simp only [mergedRuns, List.map_cons, isRunOf_uniform h3.1 h3.2.1]
        rw [this, List.flatten_cons]
        intro h
        have := (List.append_eq_nil_iff.mp h).1
        cases b with
        | true => exact h3.1 this
        | false => cases this
      rw [List.getLast?_append_of_ne_nil _ hne] at hf
      rw [List.getLast?_append_of_ne_nil _ hne']
      exact ih _ h3 hf

theorem merged_ne {b : Bool} {rs : List Str} (h : IsRuns isSpace b rs) (hne : rs.flatten ≠ []) : (mergedRuns rs).flatten ≠ [] := by
  cases rs with
  | nil => exact hne
  | cons r rs =>
    intro he
    have hm : mergedRuns (r :: rs) = (if isRunOf isSpace r then [' '] else r) :: mergedRuns rs := rfl
    rw [hm, List.flatten_cons] at he
    have := (List.append_eq_nil_iff.mp he).1
    split at this
    · cases this
    · exact h.1 this

/-- C76: merging and stripping white space can be done in either order, labels included. -/
theorem C76_merge_strip (env : Env) (m p : Op) (h1 : Made env "MergeWhiteSpaceCharacters" m)
    (h2 : Made env "StripWhiteSpaceCharacters" p) : Interchangeable [m, p] [p, m] := by
  rw [made_simple (env := env) rfl h1, made_simple (env := env) rfl h2]
  refine swap_interchange fun s => ?_
  obtain ⟨⟨x, y, e, hx, hy⟩, hh, hl⟩ := (C22_strip_form s (strip s)).mp rfl
  obtain ⟨a, a1, a2, a3, a4, a5⟩ := merge_exact env.σ s
  obtain ⟨b, b1, b2, b3, b4⟩ := strip_exact env.σ (mergedRuns (runs isSpace s)).flatten
  obtain ⟨c, c1, c2, c3, c4⟩ := strip_exact env.σ s
  obtain ⟨d, d1, d2, d3, d4, d5⟩ := merge_exact env.σ (strip s)
  obtain ⟨c5, c6⟩ := c4 x y e hx
  obtain ⟨bb, _, hr⟩ := runs_isRuns isSpace s
  obtain ⟨bm, _, hrm⟩ := runs_isRuns isSpace (strip s)
  by_cases hm : strip s = []
  · -- nothing is left
    have hs : ∀ z ∈ s, isSpace z = true := by
      intro z hz
      rw [e, hm, List.append_nil, List.mem_append] at hz
      exact hz.elim (hx z) (hy z)
    have hs' : ∀ z ∈ (mergedRuns (runs isSpace s)).flatten, isSpace z = true := by
      intro z hz
      have h0 := (merge_backward bb _ hr [] (by rw [runs_flatten, solidCount_spaces hs]; rfl)).1
      rw [runs_flatten, solidCount_spaces hs] at h0
      unfold solidCount at h0
      rw [List.countP_eq_zero] at h0
      simpa using h0 z hz
    have hm' : strip (mergedRuns (runs isSpace s)).flatten = [] := (C22_strip_form _ []).mpr
      ⟨⟨_, [], by simp, hs', by simp⟩, by simp, by simp⟩
    rw [hm] at d1 d2 d3 d4 d5
    rw [hm'] at b1 b3
    have e0 : (mergedRuns (runs isSpace ([] : Str))).flatten = [] := rfl
    rw [e0] at d1 d3
    refine ⟨_, _, _, a, b, c, d, a1, b1, c1, hm ▸ d1, ?_⟩
    rw [hm] at c1 c3 c5 c6
    obtain ⟨b5, b6⟩ := b4 _ [] (by rw [hm']; simp) hs'
    rw [hm'] at b5 b6
    refine pair_same a2 c2 b3 d3 (fun ls hl => ?_) fun ys hl => ?_
    · rw [a4 ls hl, c5 ls hl]
      show b.transform _ = d.transform _
      rw [b5 _ (by rw [mergeFwd_length bb _ hr ls (by rw [runs_flatten]; exact hl)]), d4 _ (by simp)]
      simp [mergeFwd, mapLabels, runs]
    · have : ys = [] := List.eq_nil_of_length_eq_zero hl
      subst this
      rw [b6 [] rfl, d5 [] rfl]
      show a.inverseTransform _ = c.inverseTransform _
      rw [show mergeBwd (runs isSpace ([] : Str)) [] = [] from rfl, c6 [] rfl, a5 _ (by simp)]
      have := (merge_backward bb _ hr [] (by rw [runs_flatten, solidCount_spaces hs]; rfl)).2
      rw [runs_flatten, spreadOver_spaces _ _ hs, spreadOver_spaces _ _ hs'] at this
      have hlen := congrArg List.length e
      rw [hm] at hlen
      simp only [List.length_append, List.length_nil] at hlen
      rw [List.append_nil, List.append_nil, List.length_nil, List.replicate_zero, List.append_nil,
        List.replicate_append_replicate]
      unfold mergeBwd
      rw [this]
      congr 2
  · have hruns : runs isSpace s = oneRun x ++ runs isSpace (strip s) ++ oneRun y := by
      conv => lhs; rw [e]
      exact runs_margins x (strip s) y hx hy hh hl hm
    have hmerged : (mergedRuns (runs isSpace s)).flatten =
        oneSpace x ++ (mergedRuns (runs isSpace (strip s))).flatten ++ oneSpace y := by
      rw [hruns]
      unfold mergedRuns
      rw [List.map_append, List.map_append, List.flatten_append, List.flatten_append]
      rw [← oneRun_merged x hx, ← oneRun_merged y hy]
      rfl
    have hsx : ∀ c ∈ oneSpace x, isSpace c = true := by
      unfold oneSpace; split
      · simp
      · simp; decide
    have hsy : ∀ c ∈ oneSpace y, isSpace c = true := by
      unfold oneSpace; split
      · simp
      · simp; decide
    have hstrip : strip (mergedRuns (runs isSpace s)).flatten = (mergedRuns (runs isSpace (strip s))).flatten := by
      refine (C22_strip_form _ _).mpr ⟨⟨_, _, hmerged, hsx, hsy⟩, ?_, ?_⟩
      · exact head_merged bm _ hrm (by rw [runs_flatten]; exact hh)
      · exact last_merged bm _ hrm (by rw [runs_flatten]; exact hl)
    rw [hstrip] at b1 b3
    refine ⟨_, _, _, a, b, c, d, a1, b1, c1, d1, ?_⟩
    obtain ⟨b5, b6⟩ := b4 (oneSpace x) (oneSpace y) (by rw [hstrip]; exact hmerged) hsx
    rw [hstrip] at b5 b6
    have hlen := congrArg List.length e
    simp only [List.length_append] at hlen
    refine pair_same a2 c2 b3 d3 (fun ls hls => ?_) fun ys hys => ?_
    · rw [a4 ls hls, c5 ls hls]
      show b.transform _ = d.transform _
      rw [b5 _ (mergeFwd_length bb _ hr ls (by rw [runs_flatten]; exact hls)), d4 _ (by rw [List.length_take, List.length_drop]; omega)]
      congr 1
      have hfl : (oneRun x ++ runs isSpace (strip s) ++ oneRun y).flatten.length = s.length := by
        rw [← hruns, runs_flatten]
      have hx1 : (mergeFwd (oneRun x) (ls.take x.length)).length = (oneSpace x).length := by
        rw [← oneRun_merged x hx]
        unfold oneRun
        by_cases h : x = []
        · rw [if_pos h]; rfl
        · rw [if_neg h]
          exact mergeFwd_length true [x] ⟨h, hx, trivial⟩ _ (by rw [List.length_take]; simp; omega)
      have hm1 : (mergeFwd (runs isSpace (strip s)) ((ls.drop x.length).take (strip s).length)).length =
          (mergedRuns (runs isSpace (strip s))).flatten.length :=
        mergeFwd_length bm _ hrm _ (by rw [runs_flatten, List.length_take, List.length_drop]; omega)
      rw [hruns, List.append_assoc, mergeFwd_append _ _ _ (by rw [hls, ← hfl, List.append_assoc]), oneRun_flatten,
        mergeFwd_append _ _ _ (by
          rw [List.length_drop, hls, List.flatten_append, List.length_append, runs_flatten, oneRun_flatten]; omega),
        runs_flatten, List.drop_left' hx1, List.take_left' hm1]
    · rw [b6 ys hys, d5 ys hys]
      show a.inverseTransform _ = c.inverseTransform _
      have hbm : (mergeBwd (runs isSpace (strip s)) ys).length = (strip s).length :=
        (C15_inverse_length d ys _ (d5 ys hys)).2.trans d2
      rw [c6 _ hbm, a5 _ (by rw [hmerged]; simp [hys])]
      congr 1
      have hne : ∀ r ∈ oneRun x, r ≠ [] := by
        unfold oneRun; split
        · simp
        next h => simpa using h
      have hne' : ∀ (b : Bool) (rs : List Str), IsRuns isSpace b rs → ∀ r ∈ rs, r ≠ [] := by
        intro b rs
        induction rs generalizing b with
        | nil => intro _ r hr; simp at hr
        | cons q rs ih =>
          intro h r hr
          rcases List.mem_cons.mp hr with rfl | hr
          · exact h.1
          · exact ih _ h.2.2 r hr
      rw [hruns, List.append_assoc, mergeBwd_append _ _ _ (by
          rw [← List.append_assoc, ← hruns, hmerged]; simp [hys]) hne, oneRun_merged x hx, List.append_assoc,
        List.take_left' (by simp), List.drop_left' (by simp), mergeBwd_oneRun x hx,
        mergeBwd_append _ _ _ (by
          unfold mergedRuns
          rw [List.map_append, List.flatten_append, List.length_append]
          have := oneRun_merged y hy
          unfold mergedRuns at this
          rw [this, List.length_append, hys, List.length_replicate]
          rfl) (hne' bm _ hrm),
        List.take_left' hys, List.drop_left' hys, mergeBwd_oneRun y hy, List.append_assoc]

/-! `Lowercase` -/

theorem lower_class (q : Char → Bool) (h : ∀ c ∈ capitals ++ smalls, q c = false) (c : Char) : q (asciiLower c) = q c := by
  unfold asciiLower
  cases e : (capitals.zip smalls).lookup c with
  | none => rfl
  | some d =>
    have hm : (c, d) ∈ capitals.zip smalls := by
      have : ∀ (l : List (Char × Char)), l.lookup c = some d → (c, d) ∈ l := by
        intro l
        induction l with
        | nil => intro h; cases h
        | cons x l ih =>
          intro h
          rw [List.lookup_cons] at h
          split at h
          next hc =>
            rw [← Option.some.inj h]
            have : c = x.1 := by simpa using hc
            rw [this]
            exact List.mem_cons_self
          · exact List.mem_cons_of_mem _ (ih h)
      exact this _ e
    obtain ⟨h1, h2⟩ := List.of_mem_zip hm
    rw [h c (by simp [h1])]
    exact h d (by simp [h2])

theorem lower_space (c : Char) : isSpace (asciiLower c) = isSpace c := lower_class isSpace (by decide) c

theorem lower_cjk (c : Char) : isCJK (asciiLower c) = isCJK c := lower_class isCJK (by decide) c

theorem lower_punctuation {u : Unicode} (h : ∀ c ∈ capitals ++ smalls, u.isCatP c = false) (c : Char) :
    isPunctuation u (asciiLower c) = isPunctuation u c := by
  refine lower_class (isPunctuation u) (fun d hd => ?_) c
  have h1 : ∀ d ∈ capitals ++ smalls, d ∉ asciiPunctuation := by decide
  rw [Bool.eq_false_iff]
  intro hp
  rcases (C17_punctuation u d).mp hp with h' | h'
  · exact h1 d hd h'
  · rw [h d hd] at h'; cases h'

theorem runs_map (p : Char → Bool) (f : Char → Char) (h : ∀ c, p (f c) = p c) (s : Str) :
    runs p (s.map f) = (runs p s).map (List.map f) := by
  induction s with
  | nil => rfl
  | cons c s ih =>
    simp only [List.map_cons, runs]
    rw [ih]
    cases runs p s with
    | nil => rfl
    | cons r rs =>
      simp only [List.map_cons]
      have : (r.map f).head?.map p = r.head?.map p := by
        rw [List.head?_map, Option.map_map]
        congr 1
        exact funext h
      rw [this, h]
      split <;> rfl

theorem isRunOf_map (f : Char → Char) (h : ∀ c, isSpace (f c) = isSpace c) (r : Str) :
    isRunOf isSpace (r.map f) = isRunOf isSpace r := by
  cases r with
  | nil => rfl
  | cons c r => exact h c

theorem mergeFwd_map (f : Char → Char) (h : ∀ c, isSpace (f c) = isSpace c) (rs : List Str) (ls : List Int) :
    mergeFwd (rs.map (List.map f)) ls = mergeFwd rs ls := by
  induction rs generalizing ls with
  | nil => rfl
  | cons r rs ih => rw [List.map_cons, mergeFwd_cons, mergeFwd_cons, isRunOf_map f h, List.length_map, ih]

theorem mergeBwd_map (f : Char → Char) (h : ∀ c, isSpace (f c) = isSpace c) (rs : List Str) (ls : List Int) :
    mergeBwd (rs.map (List.map f)) ls = mergeBwd rs ls := by
  induction rs generalizing ls with
  | nil => rfl
  | cons r rs ih => rw [List.map_cons, mergeBwd_cons, mergeBwd_cons, isRunOf_map f h, List.length_map, ih]

theorem merged_map (f : Char → Char) (h : ∀ c, isSpace (f c) = isSpace c) (hsp : f ' ' = ' ') (rs : List Str) :
    (mergedRuns (rs.map (List.map f))).flatten = (mergedRuns rs).flatten.map f := by
  induction rs with
  | nil => rfl
  | cons r rs ih =>
    have e : ∀ q z, mergedRuns (q :: z) = (if isRunOf isSpace q then [' '] else q) :: mergedRuns z := fun _ _ => rfl
    rw [List.map_cons, e, e, List.flatten_cons, List.flatten_cons, ih, isRunOf_map f h, List.map_append]
    congr 1
    split
    · simp [hsp]
    · rfl

/-- Running a label-preserving operator before or after another one with the same answers. -/
theorem pass_swap {a b c d : Aligner} {n k : Nat} (ha : a.inputLength = n) (hp : PassThrough a n) (hd : d.outputLength = k)
    (hd' : d.inputLength = k) (hq : PassThrough d k) (hb : b.outputLength = k) (hbn : b.inputLength = n)
    (hc : c.inputLength = n) (hck : c.outputLength = k)
    (hf : ∀ ls, ls.length = n → b.transform ls = c.transform ls)
    (hg : ∀ ys, ys.length = k → b.inverseTransform ys = c.inverseTransform ys) :
    (∀ ls, alignAll [a, b] ls = alignAll [c, d] ls) ∧ ∀ ys, realignAll [a, b] ys = realignAll [c, d] ys := by
  refine pair_same ha hc hb hd (fun ls hl => ?_) fun ys hl => ?_
  · rw [(hp ls hl).1]
    show b.transform ls = _
    rw [hf ls hl]
    cases e : c.transform ls with
    | error x => rfl
    | ok m =>
      show _ = d.transform m
      rw [(hq m (by rw [(C15_transform_length c ls m e).2, hck])).1]
  · rw [(hq ys hl).2]
    show _ = c.inverseTransform ys
    rw [hg ys hl]
    cases e : c.inverseTransform ys with
    | error x => rfl
    | ok m =>
      show a.inverseTransform m = _
      rw [(hp m (by rw [(C15_inverse_length c ys m e).2, hc])).2]

theorem strip_map (f : Char → Char) (h : ∀ c, isSpace (f c) = isSpace c) (s : Str) : strip (s.map f) = (strip s).map f := by
  obtain ⟨⟨x, y, e, hx, hy⟩, hh, hl⟩ := (C22_strip_form s (strip s)).mp rfl
  refine (C22_strip_form _ _).mpr ⟨⟨x.map f, y.map f, ?_, ?_, ?_⟩, ?_, ?_⟩
  · rw [← List.map_append, ← List.map_append, ← e]
  · intro c hc
    obtain ⟨d, hd, rfl⟩ := List.mem_map.mp hc
    rw [h]; exact hx d hd
  · intro c hc
    obtain ⟨d, hd, rfl⟩ := List.mem_map.mp hc
    rw [h]; exact hy d hd
  · intro c hc
    rw [List.head?_map, Option.mem_def, Option.map_eq_some_iff] at hc
    obtain ⟨d, hd, rfl⟩ := hc
    rw [h]; exact hh d hd
  · intro c hc
    rw [List.getLast?_map, Option.mem_def, Option.map_eq_some_iff] at hc
    obtain ⟨d, hd, rfl⟩ := hc
    rw [h]; exact hl d hd

theorem around_map (f : Char → Char) (valid : Char → Bool) (h : ∀ c, valid (f c) = valid c) (hsp : f ' ' = ' ') (s : Str) :
    (s.map f).flatMap (fun c => if valid c then [' ', c, ' '] else [c]) =
      (s.flatMap fun c => if valid c then [' ', c, ' '] else [c]).map f := by
  induction s with
  | nil => rfl
  | cons c s ih =>
    rw [List.map_cons, List.flatMap_cons, List.flatMap_cons, List.map_append, ih, h]
    congr 1
    split
    · simp [hsp]
    · rfl

theorem around_swap (σ : SetOrder) (valid : Char → Bool) (h : ∀ c, valid (asciiLower c) = valid c) (s : Str) :
    ∃ t t' out a b c d, Lowercase.transform σ s = .ok (t, a) ∧ AddWhitespaceAroundChar.transform σ valid t = .ok (out, b) ∧
      AddWhitespaceAroundChar.transform σ valid s = .ok (t', c) ∧ Lowercase.transform σ t' = .ok (out, d) ∧
      (∀ ls, alignAll [a, b] ls = alignAll [c, d] ls) ∧ ∀ ys, realignAll [a, b] ys = realignAll [c, d] ys := by
  obtain ⟨a, a1, a2, a3⟩ := C16_lowercase σ s
  obtain ⟨b, b1, b2, b3, b4, _⟩ := C17_around σ valid (s.map asciiLower)
  obtain ⟨c, c1, c2, c3, c4, _⟩ := C17_around σ valid s
  obtain ⟨d, d1, d2, d3⟩ := C16_lowercase σ (s.flatMap fun c => if valid c then [' ', c, ' '] else [c])
  rw [around_map asciiLower valid h (by decide)] at b1 b2 b4
  refine ⟨_, _, _, a, b, c, d, a1, b1, c1, d1, ?_⟩
  refine pass_swap a2.input a3 d2.output d2.input d3 (by rw [b2.output, List.length_map]) (by rw [b2.input, List.length_map])
    c2.input c2.output (fun ls hl => ?_) fun ys hl => ?_
  · rw [b3 ls (by rw [List.length_map]; exact hl), c3 ls hl, List.zip_map_left, List.flatMap_map]
    congr 1
    refine flatMap_congr_mem fun x _ => ?_
    simp only [Prod.map_fst, Prod.map_snd, h, id_eq]
  · rw [b4 ys (by rw [List.length_map]; exact hl), c4 ys hl, List.map_map]
    congr 3
    refine List.map_congr_left fun x _ => ?_
    simp only [Function.comp, h]

/-- C76: lowering letters can be done before or after the operators on white space, labels included. -/
theorem C76_lowercase (env : Env) (hcat : ∀ c ∈ capitals ++ smalls, env.u.isCatP c = false) (l x : Op)
    (h1 : Made env "Lowercase" l)
    (h2 : Made env "MergeWhiteSpaceCharacters" x ∨ Made env "StripWhiteSpaceCharacters" x ∨
      Made env "AddWhitespaceAroundCJK" x ∨ Made env "AddWhitespaceAroundPunctuation" x) :
    Interchangeable [l, x] [x, l] := by
  rw [made_simple (env := env) rfl h1]
  rcases h2 with h2 | h2 | h2 | h2 <;> rw [made_simple (env := env) rfl h2]
  · refine swap_interchange fun s => ?_
    obtain ⟨a, a1, a2, a3⟩ := C16_lowercase env.σ s
    obtain ⟨b, b1, b2, b3, b4, b5⟩ := merge_exact env.σ (s.map asciiLower)
    obtain ⟨c, c1, c2, c3, c4, c5⟩ := merge_exact env.σ s
    obtain ⟨d, d1, d2, d3⟩ := C16_lowercase env.σ (mergedRuns (runs isSpace s)).flatten
    rw [runs_map _ _ lower_space, merged_map _ lower_space (by decide)] at b1 b3 b5
    rw [runs_map _ _ lower_space] at b4
    rw [List.length_map] at b2 b3 b5
    refine ⟨_, _, _, a, b, c, d, a1, b1, c1, d1, ?_⟩
    refine pass_swap a2.input a3 d2.output d2.input d3 b3 b2 c2 c3 (fun ls hl => ?_) fun ys hl => ?_
    · rw [b4 ls (by rw [List.length_map]; exact hl), c4 ls hl, mergeFwd_map _ lower_space]
    · rw [b5 ys hl, c5 ys hl, mergeBwd_map _ lower_space]
  · refine swap_interchange fun s => ?_
    obtain ⟨a, a1, a2, a3⟩ := C16_lowercase env.σ s
    obtain ⟨b, b1, b2, b3, b4⟩ := strip_exact env.σ (s.map asciiLower)
    obtain ⟨c, c1, c2, c3, c4⟩ := strip_exact env.σ s
    obtain ⟨d, d1, d2, d3⟩ := C16_lowercase env.σ (strip s)
    obtain ⟨⟨x, y, e, hx, hy⟩, _⟩ := (C22_strip_form s (strip s)).mp rfl
    rw [strip_map _ lower_space] at b1 b3 b4
    obtain ⟨b5, b6⟩ := b4 (x.map asciiLower) (y.map asciiLower) (by rw [← List.map_append, ← List.map_append, ← e]) (by
      intro z hz
      obtain ⟨w, hw, rfl⟩ := List.mem_map.mp hz
      rw [lower_space]; exact hx w hw)
    obtain ⟨c5, c6⟩ := c4 x y e hx
    simp only [List.length_map] at b2 b3 b5 b6
    refine ⟨_, _, _, a, b, c, d, a1, b1, c1, d1, ?_⟩
    refine pass_swap a2.input a3 d2.output d2.input d3 b3 b2 c2 c3 (fun ls hl => ?_) fun ys hl => ?_
    · rw [b5 ls hl, c5 ls hl]
    · rw [b6 ys hl, c6 ys hl]
  · exact swap_interchange fun s => around_swap env.σ isCJK lower_cjk s
  · exact swap_interchange fun s => around_swap env.σ (isPunctuation env.u) (lower_punctuation hcat) s

theorem lower_spread (s : Str) (zs : List Int) : spreadOver (s.map asciiLower) zs = spreadOver s zs := by
  induction s generalizing zs with
  | nil => rfl
  | cons c s ih => simp only [List.map_cons, spreadOver, lower_space, ih]

theorem lower_solid (s : Str) (ls : List Int) : solidOf (s.map asciiLower) ls = solidOf s ls := by
  induction s generalizing ls with
  | nil => rfl
  | cons c s ih =>
    cases ls with
    | nil => rfl
    | cons l ls => simp only [List.map_cons, solidOf, lower_space, ih]

theorem lower_carry (σ : SetOrder) (s : Str) :
    ∃ a, Lowercase.transform σ s = .ok (s.map asciiLower, a) ∧ Carry a s (s.map asciiLower) := by
  obtain ⟨a, h1, h2, h3⟩ := C16_lowercase σ s
  have hcount : solidCount (s.map asciiLower) = solidCount s := by
    unfold solidCount
    rw [List.countP_map]
    congr 1
    funext c
    simp [lower_space]
  refine ⟨a, h1, h2.input, fun ls hl => ⟨ls, (h3 ls hl).1, by rw [List.length_map]; exact hl, lower_solid s ls⟩, hcount, ?_⟩
  intro zs _ hz
  rw [lower_spread]
  exact (h3 _ (spreadOver_length _ _)).2

theorem scanWords_map (own : Char → Bool) (f : Char → Char) (hs : ∀ c, isSpace (f c) = isSpace c)
    (ho : ∀ c, own (f c) = own c) (s cur : Str) :
    scanWords own (s.map f) (cur.map f) = (scanWords own s cur).map (List.map f) := by
  induction s generalizing cur with
  | nil =>
    show emit (cur.map f) = (emit cur).map (List.map f)
    unfold emit
    by_cases h : cur = []
    · subst h; rfl
    · rw [if_neg h, if_neg (by simpa using h)]; rfl
  | cons c s ih =>
    have he : emit (cur.map f) = (emit cur).map (List.map f) := by
      unfold emit
      by_cases h : cur = []
      · subst h; rfl
      · rw [if_neg h, if_neg (by simpa using h)]; rfl
    have i0 := ih []
    have i1 := ih (cur ++ [c])
    simp only [List.map_nil, List.map_append, List.map_cons] at i0 i1
    simp only [List.map_cons, scanWords, hs, ho]
    split
    · rw [he, i0, List.map_append]
    · split
      · rw [he, i0, List.map_append]; rfl
      · exact i1

/-- C76: lowering letters before tokenizing lowers the tokens and makes no difference to the labels. -/
theorem C76_lowercase_tokens (env : Env) (hcat : ∀ c ∈ capitals ++ smalls, env.u.isCatP c = false) (name : String) (l t : Op)
    (h1 : Made env "Lowercase" l)
    (hn : name = "WhiteSpaceTokenizer" ∨ name = "EngTokenizer" ∨ name = "ZhCharTokenizer") (ht : Made env name t) (s : Str) :
    ∃ (words : List Str) (as bs : List Aligner) (coll coll' : List Seq), Pipe.transformSequence ⟨[t], []⟩ (.str s) = .ok (.list (words.map Tok.str), as, coll) ∧
      Pipe.transformSequence ⟨[l, t], []⟩ (.str s) = .ok (.list (words.map fun w => Tok.str (w.map asciiLower)), bs, coll') ∧
      (∀ ls, alignAll as ls = alignAll bs ls) ∧ ∀ ys, realignAll as ys = realignAll bs ys := by
  rw [made_simple (env := env) rfl h1]
  have hT : ∃ own T n, Cutter own T ∧ (∀ c, own (asciiLower c) = own c) ∧
      t = ⟨Builtin.simple n .str .list (tokOp T), [], tokOp T⟩ := by
    rcases hn with rfl | rfl | rfl
    · exact ⟨_, _, _, C39_C42_whitespace env.σ, fun _ => rfl, made_simple rfl ht⟩
    · exact ⟨_, _, _, C40_C42_eng env.σ env.u, lower_punctuation hcat, made_simple rfl ht⟩
    · refine ⟨_, _, _, C40_C42_zh env.σ env.u, fun c => ?_, made_simple rfl ht⟩
      simp only [lower_punctuation hcat, lower_cjk]
  obtain ⟨own, T, n, hT, ho, rfl⟩ := hT
  obtain ⟨a, a1, a2⟩ := lower_carry env.σ s
  obtain ⟨b, ps, tail, b1, b2, b3⟩ := hT s
  obtain ⟨c, ps', tail', c1, c2, c3⟩ := hT (s.map asciiLower)
  have hw : ps'.map Prod.snd = (ps.map Prod.snd).map (List.map asciiLower) := by
    rw [cutter_words c2, cutter_words b2]
    exact scanWords_map own asciiLower lower_space ho s []
  have hlen : (ps.map fun p => p.2.length) = ps'.map fun p => p.2.length := by
    have := congrArg (List.map List.length) hw
    rw [List.map_map, List.map_map, List.map_map] at this
    refine Eq.symm (this.trans (List.map_congr_left fun p _ => ?_))
    simp
  obtain ⟨f, g⟩ := carry_tokens b2 b3 c2 c3 hlen a2
  have r2 := run_two (strOp_transform (name := "Lowercase") a1) (tokOp_transform (name := n) c1)
  rw [hw, List.map_map] at r2
  exact ⟨ps.map Prod.snd, _, _, _, _, run_one (tokOp_transform b1), r2, fun ls => (f ls).symm, fun ys => (g ys).symm⟩

/-! ### Doing something twice -/

theorem twice_interchange {X : Str → Res (Str × Aligner)} {n : String}
    (h : ∀ s, ∃ t a b, X s = .ok (t, a) ∧ X t = .ok (t, b) ∧ a.outputLength = t.length ∧ b.outputLength = t.length ∧
      PassThrough b t.length) :
    Interchangeable [⟨Builtin.simple n .str .str (strOp X), [], strOp X⟩, ⟨Builtin.simple n .str .str (strOp X), [], strOp X⟩]
      [⟨Builtin.simple n .str .str (strOp X), [], strOp X⟩] := by
  intro s
  cases s with
  | list l => rw [run_list rfl, run_list rfl]; exact .error _
  | str s =>
    obtain ⟨t, a, b, h1, h2, h3, h4, h5⟩ := h s
    rw [run_two (strOp_transform h1) (strOp_transform h2), run_one (strOp_transform h1)]
    refine .ok _ _ _ _ _ (fun ls => ?_) fun ys => ?_
    · show (a.transform ls >>= fun m => b.transform m >>= fun m => .ok m) = (a.transform ls >>= fun m => .ok m)
      cases e : a.transform ls with
      | error x => rfl
      | ok m =>
        show (b.transform m >>= fun m => .ok m) = _
        rw [(h5 m (by rw [(C15_transform_length a ls m e).2, h3])).1]
    · show (b.inverseTransform ys >>= fun m => a.inverseTransform m >>= fun m => .ok m) = (a.inverseTransform ys >>= fun m => .ok m)
      by_cases hl : ys.length = t.length
      · rw [(h5 ys hl).2]
        rfl
      · rw [C15_inverse_wrong_length b ys (by rw [h4]; exact hl), C15_inverse_wrong_length a ys (by rw [h3]; exact hl)]
        rfl

theorem mergedRuns_idem (rs : List Str) : mergedRuns (mergedRuns rs) = mergedRuns rs := by
  unfold mergedRuns
  rw [List.map_map]
  refine List.map_congr_left fun r _ => ?_
  simp only [Function.comp]
  by_cases h : isRunOf isSpace r = true
  · rw [if_pos h]
    exact if_pos rfl
  · rw [if_neg h, if_neg h]

theorem mergeFwd_merged (rs : List Str) (ls : List Int) (hl : ls.length = (mergedRuns rs).flatten.length) :
    mergeFwd (mergedRuns rs) ls = ls := by
  induction rs generalizing ls with
  | nil => exact (List.eq_nil_of_length_eq_zero hl).symm
  | cons r rs ih =>
    have e : ∀ q z, mergedRuns (q :: z) = (if isRunOf isSpace q then [' '] else q) :: mergedRuns z := fun _ _ => rfl
    rw [e, List.flatten_cons, List.length_append] at hl
    rw [e, mergeFwd_cons, ih _ (by rw [List.length_drop]; omega)]
    by_cases h : isRunOf isSpace r = true
    · rw [if_pos h] at hl ⊢
      rw [if_pos (show isRunOf isSpace [' '] = true from rfl)]
      cases ls with
      | nil => simp at hl; omega
      | cons l ls =>
        show [firstMode [l]] ++ ls = l :: ls
        rw [firstMode_single]
        rfl
    · rw [if_neg h] at hl ⊢
      rw [if_neg h, List.take_append_drop]

theorem mergeBwd_merged (rs : List Str) (ls : List Int) (hl : ls.length = (mergedRuns rs).flatten.length) :
    mergeBwd (mergedRuns rs) ls = ls := by
  induction rs generalizing ls with
  | nil => exact (List.eq_nil_of_length_eq_zero hl).symm
  | cons r rs ih =>
    have e : ∀ q z, mergedRuns (q :: z) = (if isRunOf isSpace q then [' '] else q) :: mergedRuns z := fun _ _ => rfl
    rw [e, List.flatten_cons, List.length_append] at hl
    rw [e, mergeBwd_cons]
    by_cases h : isRunOf isSpace r = true
    · rw [if_pos h] at hl ⊢
      rw [if_pos (show isRunOf isSpace [' '] = true from rfl), if_pos (show isRunOf isSpace [' '] = true from rfl)]
      cases ls with
      | nil => simp at hl; omega
      | cons l ls =>
        show List.replicate 1 (firstMode [l]) ++ mergeBwd (mergedRuns rs) ls = l :: ls
        rw [firstMode_single, ih ls (by rw [List.length_cons, List.length_singleton] at hl; omega)]
        rfl
    · rw [if_neg h] at hl ⊢
      rw [if_neg h, if_neg h, ih _ (by rw [List.length_drop]; omega), List.take_append_drop]

/-- C76: lowering, merging or stripping twice is the same as once, labels included. -/
theorem C76_twice (env : Env) (x : Op)
    (h : Made env "Lowercase" x ∨ Made env "MergeWhiteSpaceCharacters" x ∨ Made env "StripWhiteSpaceCharacters" x) :
    Interchangeable [x, x] [x] := by
  rcases h with h | h | h <;> rw [made_simple (env := env) rfl h] <;> refine twice_interchange fun s => ?_
  · obtain ⟨a, a1, a2, _⟩ := C16_lowercase env.σ s
    obtain ⟨b, b1, b2, b3⟩ := C16_lowercase env.σ (s.map asciiLower)
    have e : (s.map asciiLower).map asciiLower = s.map asciiLower := by
      rw [List.map_map]
      exact List.map_congr_left fun c _ => lower_idem c
    rw [e] at b1
    exact ⟨_, a, b, a1, b1, by rw [a2.output, List.length_map], b2.output, b3⟩
  · obtain ⟨a, a1, a2, a3, _⟩ := merge_exact env.σ s
    obtain ⟨b, b1, b2, b3, b4, b5⟩ := merge_exact env.σ (mergedRuns (runs isSpace s)).flatten
    obtain ⟨bb, _, hr⟩ := runs_isRuns isSpace s
    rw [isRuns_unique isSpace bb _ (mergedRuns_isRuns bb _ hr), mergedRuns_idem] at b1 b3 b5
    rw [isRuns_unique isSpace bb _ (mergedRuns_isRuns bb _ hr)] at b4
    refine ⟨_, a, b, a1, b1, a3, b3, fun ls hl => ⟨?_, ?_⟩⟩
    · rw [b4 ls hl, mergeFwd_merged _ _ hl]
    · rw [b5 ls hl, mergeBwd_merged _ _ hl]
  · obtain ⟨a, a1, a2, a3, _⟩ := strip_exact env.σ s
    obtain ⟨b, b1, b2, b3, b4⟩ := strip_exact env.σ (strip s)
    have e : strip (strip s) = strip s := (C22_strip_form (strip s) (strip s)).mpr
      ⟨⟨[], [], by simp, by simp, by simp⟩, ((C22_strip_form s (strip s)).mp rfl).2⟩
    rw [e] at b1 b3 b4
    obtain ⟨b5, b6⟩ := b4 [] [] (by simp) (by simp)
    refine ⟨_, a, b, a1, b1, a3, b3, fun ls hl => ⟨?_, ?_⟩⟩
    · rw [b5 ls hl, List.length_nil, List.drop_zero, ← hl, List.take_length]
    · rw [b6 ls hl]; simp

/-! ### White space around punctuation and around ideographs -/

/-- The labels of the characters of `s` after white space is put around the characters in `p`. -/
def aroundFwd (p : Char → Bool) : Str → List Int → List Int
  | c :: s, l :: ls => (if p c then [0, l, 0] else [l]) ++ aroundFwd p s ls
  | _, _ => []

/-- The labels of the characters of `s`, from the labels after white space is put around the characters in `p`. -/
def aroundBwd (p : Char → Bool) : Str → List Int → List Int
  | [], _ => []
  | c :: s, ys => firstNonzeroMode (ys.take (if p c then 3 else 1)) :: aroundBwd p s (ys.drop (if p c then 3 else 1))

/-- The text with white space put around the characters in `p`. -/
def aroundText (p : Char → Bool) (s : Str) : Str := s.flatMap fun c => if p c then [' ', c, ' '] else [c]

theorem aroundText_cons (p : Char → Bool) (c : Char) (s : Str) :
    aroundText p (c :: s) = (if p c then [' ', c, ' '] else [c]) ++ aroundText p s := rfl

theorem around_exact (σ : SetOrder) (p : Char → Bool) (s : Str) :
    ∃ a, AddWhitespaceAroundChar.transform σ p s = .ok (aroundText p s, a) ∧ a.inputLength = s.length ∧
      a.outputLength = (aroundText p s).length ∧ (∀ ls, ls.length = s.length → a.transform ls = .ok (aroundFwd p s ls)) ∧
      ∀ ys, ys.length = (aroundText p s).length → a.inverseTransform ys = .ok (aroundBwd p s ys) := by
  obtain ⟨a, h1, h2, h3, h4, _⟩ := C17_around σ p s
  refine ⟨a, h1, h2.input, h2.output, fun ls hl => ?_, fun ys hl => ?_⟩
  · rw [h3 ls hl]
    congr 1
    clear h1 h2 h3 h4
    induction s generalizing ls with
    | nil => rfl
    | cons c s ih =>
      cases ls with
      | nil => rfl
      | cons l ls =>
        rw [List.zip_cons_cons, List.flatMap_cons, ih ls (by simpa using hl)]
        rfl
  · rw [h4 ys hl]
    congr 1
    clear h1 h2 h3 h4 hl
    induction s generalizing ys with
    | nil => rfl
    | cons c s ih =>
      show _ :: ((segments (s.map fun c => if p c then 3 else 1) _).map firstNonzeroMode) = _
      rw [ih]
      rfl

theorem aroundFwd_swap (p q : Char → Bool) (hp : p ' ' = false) (hq : q ' ' = false) (s : Str) (ls : List Int)
    (hl : ls.length = s.length) :
    aroundFwd q (aroundText p s) (aroundFwd p s ls) = aroundFwd p (aroundText q s) (aroundFwd q s ls) := by
  induction s generalizing ls with
  | nil => rfl
  | cons c s ih =>
    cases ls with
    | nil => cases hl
    | cons l ls =>
      have ih := ih ls (by simpa using hl)
      rw [aroundText_cons, aroundText_cons]
      cases h1 : p c <;> cases h2 : q c <;> simp [aroundFwd, h1, h2, hp, hq, ih]

theorem aroundBwd_swap (p q : Char → Bool) (hp : p ' ' = false) (hq : q ' ' = false) (s : Str) (ys : List Int)
    (hl : ys.length = (aroundText q (aroundText p s)).length) :
    aroundBwd p s (aroundBwd q (aroundText p s) ys) = aroundBwd q s (aroundBwd p (aroundText q s) ys) := by
  induction s generalizing ys with
  | nil => rfl
  | cons c s ih =>
    rw [aroundText_cons] at hl
    rw [aroundText_cons, aroundText_cons]
    cases h1 : p c <;> cases h2 : q c <;> simp only [h1, h2, if_true, if_false, Bool.false_eq_true, List.cons_append,
      List.nil_append, aroundText_cons, hq, List.length_cons] at hl ⊢
    · obtain ⟨y, ys, rfl⟩ := List.exists_cons_of_length_eq_add_one hl
      simp [aroundBwd, h1, h2, firstNonzeroMode_single, ih ys (by simpa using hl)]
    · obtain ⟨y1, ys, rfl⟩ := List.exists_cons_of_length_eq_add_one hl
      obtain ⟨y2, ys, rfl⟩ := List.exists_cons_of_length_eq_add_one (by simpa using hl)
      obtain ⟨y3, ys, rfl⟩ := List.exists_cons_of_length_eq_add_one (by simpa using hl)
      simp [aroundBwd, h1, h2, hp, hq, firstNonzeroMode_single, ih ys (by simpa using hl)]
    · obtain ⟨y1, ys, rfl⟩ := List.exists_cons_of_length_eq_add_one hl
      obtain ⟨y2, ys, rfl⟩ := List.exists_cons_of_length_eq_add_one (by simpa using hl)
      obtain ⟨y3, ys, rfl⟩ := List.exists_cons_of_length_eq_add_one (by simpa using hl)
      simp [aroundBwd, h1, h2, hp, hq, firstNonzeroMode_single, ih ys (by simpa using hl)]
    · obtain ⟨y1, ys, rfl⟩ := List.exists_cons_of_length_eq_add_one hl
      obtain ⟨y2, ys, rfl⟩ := List.exists_cons_of_length_eq_add_one (by simpa using hl)
      obtain ⟨y3, ys, rfl⟩ := List.exists_cons_of_length_eq_add_one (by simpa using hl)
      obtain ⟨y4, ys, rfl⟩ := List.exists_cons_of_length_eq_add_one (by simpa using hl)
      obtain ⟨y5, ys, rfl⟩ := List.exists_cons_of_length_eq_add_one (by simpa using hl)
      simp [aroundBwd, h1, h2, hp, hq, firstNonzeroMode_single, ih ys (by simpa using hl)]

theorem aroundText_swap (p q : Char → Bool) (hp : p ' ' = false) (hq : q ' ' = false) (s : Str) :
    aroundText q (aroundText p s) = aroundText p (aroundText q s) := by
  induction s with
  | nil => rfl
  | cons c s ih =>
    rw [aroundText_cons, aroundText_cons]
    cases h1 : p c <;> cases h2 : q c <;> simp [aroundText_cons, h1, h2, hp, hq, ih]

/-- C76: white space is put around punctuation and around ideographs in either order, labels included. -/
theorem C76_around_swap (env : Env) (hp : env.u.isCatP ' ' = false) (c p : Op)
    (h1 : Made env "AddWhitespaceAroundCJK" c) (h2 : Made env "AddWhitespaceAroundPunctuation" p) :
    Interchangeable [c, p] [p, c] := by
  rw [made_simple (env := env) rfl h1, made_simple (env := env) rfl h2]
  refine swap_interchange fun s => ?_
  have hpp : isPunctuation env.u ' ' = false := by
    rw [Bool.eq_false_iff]
    intro h
    rcases (C17_punctuation env.u ' ').mp h with h | h
    · exact absurd h (by decide)
    · rw [hp] at h; cases h
  have hcc : isCJK ' ' = false := by decide
  obtain ⟨a, a1, a2, a3, a4, a5⟩ := around_exact env.σ isCJK s
  obtain ⟨b, b1, b2, b3, b4, b5⟩ := around_exact env.σ (isPunctuation env.u) (aroundText isCJK s)
  obtain ⟨d, d1, d2, d3, d4, d5⟩ := around_exact env.σ (isPunctuation env.u) s
  obtain ⟨e, e1, e2, e3, e4, e5⟩ := around_exact env.σ isCJK (aroundText (isPunctuation env.u) s)
  have hs := aroundText_swap isCJK (isPunctuation env.u) hcc hpp s
  rw [← hs] at e1 e3 e5
  refine ⟨_, _, _, a, b, d, e, a1, b1, d1, e1, pair_same a2 d2 b3 e3 (fun ls hl => ?_) fun ys hl => ?_⟩
  · have ha := a4 ls hl
    have hd := d4 ls hl
    rw [ha, hd]
    show b.transform _ = e.transform _
    rw [b4 _ (by rw [(C15_transform_length a ls _ ha).2, a3]), e4 _ (by rw [(C15_transform_length d ls _ hd).2, d3]),
      aroundFwd_swap _ _ hcc hpp s ls hl]
  · have hb := b5 ys hl
    have he := e5 ys hl
    rw [hb, he]
    show a.inverseTransform _ = d.inverseTransform _
    rw [a5 _ (by rw [(C15_inverse_length b ys _ hb).2, b2]), d5 _ (by rw [(C15_inverse_length e ys _ he).2, e2]),
      aroundBwd_swap _ _ hcc hpp s ys hl]

/-- C76: what `basic_pipe` does but for accents: all of its steps on white space can be left out if `ZhCharTokenizer`
takes the place of the tokenizer. -/
theorem C76_basic (env : Env) (hp : ∀ c, env.u.isCatP c = true → isSpace c = false)
    (hcat : ∀ c ∈ capitals ++ smalls, env.u.isCatP c = false) (l c p m s w z : Op) (h0 : Made env "Lowercase" l)
    (h1 : Made env "AddWhitespaceAroundCJK" c) (h2 : Made env "AddWhitespaceAroundPunctuation" p)
    (h3 : Made env "MergeWhiteSpaceCharacters" m) (h4 : Made env "StripWhiteSpaceCharacters" s)
    (h5 : Made env "WhiteSpaceTokenizer" w) (h6 : Made env "ZhCharTokenizer" z) :
    Interchangeable [l, c, p, m, s, w] [l, z] ∧ Interchangeable [c, p, m, s, l, w] [l, z] := by
  have e1 : Interchangeable [m, s, w] [w] :=
    C76_equivalence.2.2 _ _ _ (C76_replace _ _ [m] [] (C76_white_space env _ s w (Or.inr h4) (Or.inl rfl) h5))
      (C76_white_space env _ m w (Or.inl h3) (Or.inl rfl) h5)
  have e2 : Interchangeable [l, c, p, m, s, w] [l, z] :=
    C76_equivalence.2.2 _ _ _ (C76_replace _ _ [l, c, p] [] e1) (C76_replace _ _ [l] [] (C76_zh_words env hp c p w z h1 h2 h5 h6))
  refine ⟨e2, C76_equivalence.2.2 _ _ _ ?_ e2⟩
  have k := fun x hx => C76_equivalence.2.1 _ _ (C76_lowercase env hcat l x h0 hx)
  refine C76_equivalence.2.2 _ _ _ (C76_replace _ _ [c, p, m] [w] (k s (Or.inr (Or.inl h4)))) ?_
  refine C76_equivalence.2.2 _ _ _ (C76_replace _ _ [c, p] [s, w] (k m (Or.inl h3))) ?_
  refine C76_equivalence.2.2 _ _ _ (C76_replace _ _ [c] [m, s, w] (k p (Or.inr (Or.inr (Or.inr h2))))) ?_
  exact C76_replace _ _ [] [p, m, s, w] (k c (Or.inr (Or.inr (Or.inl h1))))

/-! ### Concrete cases -/

theorem exMade {name : String} {i o : SeqType} {run : Seq → Res (Seq × Aligner)}
    (hc : (Builtin.registry exEnv).get name.toList = .ok (Builtin.simple name i o run)) :
    Made exEnv name ⟨Builtin.simple name i o run, [], run⟩ := ⟨[], [], (create_simple hc).1⟩

-- operators with these names exist, and the conditions on categories hold for the example classification
example : ∃ l c p m s w e z, Made exEnv "Lowercase" l ∧ Made exEnv "AddWhitespaceAroundCJK" c ∧
    Made exEnv "AddWhitespaceAroundPunctuation" p ∧ Made exEnv "MergeWhiteSpaceCharacters" m ∧
    Made exEnv "StripWhiteSpaceCharacters" s ∧ Made exEnv "WhiteSpaceTokenizer" w ∧ Made exEnv "EngTokenizer" e ∧
    Made exEnv "ZhCharTokenizer" z ∧ (∀ c, exEnv.u.isCatP c = true → isSpace c = false) ∧
    (∀ c ∈ capitals ++ smalls, exEnv.u.isCatP c = false) ∧
    -- the claims at these operators
    Interchangeable [m, w] [w] ∧ Interchangeable [p, w] [e] ∧ Interchangeable [c, e] [z] ∧ Interchangeable [p, e] [e] ∧
    Interchangeable [c, p, w] [z] ∧ Interchangeable [m, s] [s, m] ∧ Interchangeable [l, p] [p, l] ∧
    Interchangeable [m, m] [m] ∧ Interchangeable [c, p] [p, c] ∧ Interchangeable [l, c, p, m, s, w] [l, z] := by
  have hp : ∀ c, exEnv.u.isCatP c = true → isSpace c = false := fun c h => by
    have h : asciiUnicode.isCatP c = true := h
    cases h
  have hcat : ∀ c ∈ capitals ++ smalls, exEnv.u.isCatP c = false := by decide
  have l := exMade (name := "Lowercase") rfl
  have c := exMade (name := "AddWhitespaceAroundCJK") rfl
  have p := exMade (name := "AddWhitespaceAroundPunctuation") rfl
  have m := exMade (name := "MergeWhiteSpaceCharacters") rfl
  have s := exMade (name := "StripWhiteSpaceCharacters") rfl
  have w := exMade (name := "WhiteSpaceTokenizer") rfl
  have e := exMade (name := "EngTokenizer") rfl
  have z := exMade (name := "ZhCharTokenizer") rfl
  exact ⟨_, _, _, _, _, _, _, _, l, c, p, m, s, w, e, z, hp, hcat, C76_white_space _ _ _ _ (Or.inl m) (Or.inl rfl) w,
    C76_eng _ hp _ _ _ p w e, C76_zh _ _ _ _ c e z, (C76_around _ hp _ _ _ _ c p e z).1, C76_zh_words _ hp _ _ _ _ c p w z,
    C76_merge_strip _ _ _ m s, C76_lowercase _ hcat _ _ l (Or.inr (Or.inr (Or.inr p))), C76_twice _ _ (Or.inr (Or.inl m)),
    C76_around_swap _ rfl _ _ c p, (C76_basic _ hp hcat _ _ _ _ _ _ _ l c p m s w z).1⟩

-- not everything is interchangeable: merging white space is not the same as doing nothing, nor as stripping it
example : ∃ m s, Made exEnv "MergeWhiteSpaceCharacters" m ∧ Made exEnv "StripWhiteSpaceCharacters" s ∧
    ¬ Interchangeable [m] [] ∧ ¬ Interchangeable [m] [s] := by
  refine ⟨_, _, exMade (name := "MergeWhiteSpaceCharacters") rfl, exMade (name := "StripWhiteSpaceCharacters") rfl, ?_, ?_⟩
  · intro h
    have h := h (.str "a  b".toList)
    obtain ⟨a, h1, _⟩ := merge_exact exEnv.σ "a  b".toList
    rw [run_one (strOp_transform h1)] at h
    cases h
  · intro h
    have h := h (.str "a  b".toList)
    obtain ⟨a, h1, _⟩ := merge_exact exEnv.σ "a  b".toList
    obtain ⟨b, h2, _⟩ := strip_exact exEnv.σ "a  b".toList
    rw [run_one (strOp_transform h1), run_one (strOp_transform h2)] at h
    cases h

-- nor is the order of putting white space around punctuation and merging it
example : ∃ m p, Made exEnv "MergeWhiteSpaceCharacters" m ∧ Made exEnv "AddWhitespaceAroundPunctuation" p ∧
    ¬ Interchangeable [m, p] [p, m] := by
  refine ⟨_, _, exMade (name := "MergeWhiteSpaceCharacters") rfl, exMade (name := "AddWhitespaceAroundPunctuation") rfl, ?_⟩
  intro h
  have h := h (.str "a ,".toList)
  obtain ⟨a, a1, _⟩ := merge_exact exEnv.σ "a ,".toList
  obtain ⟨b, b1, _⟩ := around_exact exEnv.σ (isPunctuation exEnv.u) "a ,".toList
  obtain ⟨c, c1, _⟩ := around_exact exEnv.σ (isPunctuation exEnv.u) (mergedRuns (runs isSpace "a ,".toList)).flatten
  obtain ⟨d, d1, _⟩ := merge_exact exEnv.σ (aroundText (isPunctuation exEnv.u) "a ,".toList)
  have r1 := run_two (strOp_transform (name := "MergeWhiteSpaceCharacters") a1)
    (strOp_transform (name := "AddWhitespaceAroundPunctuation") (f := AddWhitespaceAroundPunctuation.transform exEnv.σ exEnv.u) c1)
  have r2 := run_two (strOp_transform (name := "AddWhitespaceAroundPunctuation")
    (f := AddWhitespaceAroundPunctuation.transform exEnv.σ exEnv.u) b1) (strOp_transform (name := "MergeWhiteSpaceCharacters") d1)
  rw [r1, r2] at h
  cases h

-- C76_lowercase_tokens
example : ∃ l w, Made exEnv "Lowercase" l ∧ Made exEnv "WhiteSpaceTokenizer" w ∧
    ∃ (words : List Str) (as bs : List Aligner) (coll coll' : List Seq),
      Pipe.transformSequence ⟨[w], []⟩ (.str "Hi THERE".toList) = .ok (.list (words.map Tok.str), as, coll) ∧
      Pipe.transformSequence ⟨[l, w], []⟩ (.str "Hi THERE".toList) =
        .ok (.list (words.map fun w => Tok.str (w.map asciiLower)), bs, coll') :=
  have l := exMade (name := "Lowercase") rfl
  have w := exMade (name := "WhiteSpaceTokenizer") rfl
  have ⟨words, as, bs, coll, coll', h1, h2, _⟩ :=
    C76_lowercase_tokens exEnv (by decide) "WhiteSpaceTokenizer" _ _ l (Or.inl rfl) w "Hi THERE".toList
  ⟨_, _, l, w, words, as, bs, coll, coll', h1, h2⟩

end Uttut
