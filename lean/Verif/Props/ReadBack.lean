import Verif.Spec.ReadBack
import Verif.Props.Confuse
import Verif.Props.Twice
import Verif.Props.Produce
import Verif.Props.Bert

/-! C118: words can be read back from their pieces. -/

namespace Uttut
open Spec

theorem continues_false_prefix {p rest : Str} (h : continues (p ++ rest) = false) : continues p = false := by
  match p with
  | [] => rfl
  | [_] =>
    unfold continues
    split
    · rename_i h'
      cases h'
    · rfl
  | a :: b :: p =>
    by_cases e : a = '#' ∧ b = '#'
    · obtain ⟨rfl, rfl⟩ := e
      exact absurd h (by simp [continues])
    · unfold continues
      split
      · rename_i h'
        cases h'
        exact absurd ⟨rfl, rfl⟩ e
      · rfl

theorem glue_marked (rs : List Str) (ps : List Str) :
    glue (rs.map (wordPiece false) ++ ps) = (rs.flatten ++ (glue ps).1, (glue ps).2) := by
  induction rs with
  | nil => rfl
  | cons r rs ih =>
    rw [List.map_cons, List.cons_append, glue, ih]
    simp [wordPiece, continues]

theorem readBack_word {r : Str} (hr : continues r = false) (rs ps : List Str) :
    glue (wordPieces (r :: rs) ++ ps) = ([], ((r :: rs).flatten ++ (glue ps).1) :: (glue ps).2) := by
  rw [wordPieces, List.cons_append, glue, glue_marked]
  simp [wordPiece, hr, List.append_assoc]

/-- The pieces of a plain word: none of them is lost and only the first one starts a word. -/
theorem glue_pieces {vocab : List Str} {unk : Str} {n : Int} {w : Str} {ps : List Str} (hu : continues unk = false)
    (hw : PlainWord w) (h : PiecesOf vocab unk n w ps) : ∃ r, (Covered vocab n w ∧ r = w ∨ ¬ Covered vocab n w ∧ r = unk) ∧
      ∀ qs, glue (ps ++ qs) = ([], (r ++ (glue qs).1) :: (glue qs).2) := by
  rcases h with ⟨h1, rs, h2, rfl⟩ | ⟨h1, rfl⟩
  · refine ⟨w, Or.inl ⟨⟨h1, rs, h2⟩, rfl⟩, fun qs => ?_⟩
    have e := C33_concatenates _ _ _ _ h2
    cases rs with
    | nil => exact absurd e.symm hw.1
    | cons r rs =>
      have : continues r = false := by
        refine continues_false_prefix (rest := rs.flatten) ?_
        have := hw.2
        rwa [← e] at this
      rw [readBack_word this, e]
  · refine ⟨unk, Or.inr ⟨?_, rfl⟩, fun qs => ?_⟩
    · rintro ⟨h2, h3⟩
      rcases h1 with h1 | h1
      · omega
      · exact h1 h3
    · rw [List.singleton_append, glue, if_neg (by simp [hu])]

theorem glue_all {vocab : List Str} {unk : Str} {n : Int} (hu : continues unk = false) (subs : Str → List Str)
    (l : List Str) (hl : ∀ w ∈ l, PlainWord w) (hs : ∀ w ∈ l, PiecesOf vocab unk n w (subs w)) :
    (glue (l.flatMap subs)).1 = [] ∧
      List.Forall₂ (fun w r => Covered vocab n w ∧ r = w ∨ ¬ Covered vocab n w ∧ r = unk) l (readBack (l.flatMap subs)) := by
  induction l with
  | nil => exact ⟨rfl, .nil⟩
  | cons w l ih =>
    obtain ⟨i1, i2⟩ := ih (fun x hx => hl x (.tail _ hx)) fun x hx => hs x (.tail _ hx)
    obtain ⟨r, h1, h2⟩ := glue_pieces hu (hl w (.head _)) (hs w (.head _))
    unfold readBack at i2 ⊢
    rw [List.flatMap_cons, h2, i1, List.append_nil]
    exact ⟨rfl, .cons h1 i2⟩

theorem subwords_gives (env : Env) (args : List PyVal) (kwargs : List (Str × PyVal)) (d : List (Str × PyVal)) (unk : Str)
    (n : Int) (op : Op) (hb : bound subwordParams args kwargs = some [.dict d, .str unk, .int n])
    (h : create env "SpanSubwords" args kwargs = .ok op) : ∃ subs : Str → List Str,
      (∀ w, PiecesOf (d.map Prod.fst) unk n w (subs w)) ∧
      ∀ l : List Str, Gives op (.list (l.map Tok.str)) (.list ((l.flatMap subs).map Tok.str)) := by
  obtain ⟨op', h', hg⟩ := (C74_subwords env args kwargs).1 d unk n hb
  rw [h] at h'
  cases h'
  refine ⟨fun w => (piecesOf_exists (d.map Prod.fst) unk n w).choose, fun w => (piecesOf_exists _ _ _ w).choose_spec, fun l => ?_⟩
  have := hg l (fun w => (piecesOf_exists (d.map Prod.fst) unk n w).choose) fun w _ => (piecesOf_exists _ _ _ w).choose_spec
  rwa [← List.map_flatMap] at this

theorem gives_unique {op : Op} {x y z : Seq} (h : Gives op x y) (h' : Gives op x z) : y = z := by
  obtain ⟨_, h⟩ := h
  obtain ⟨_, h'⟩ := h'
  rw [h] at h'
  cases h'
  rfl

theorem map_str_inj {xs ys : List Str} (h : xs.map Tok.str = ys.map Tok.str) : xs = ys :=
  List.map_injective_iff.mpr (fun _ _ h => Tok.str.inj h) h

/-- C118: joining the pieces gives the words back, the unknown token in place of those that are not covered. -/
theorem C118_read_back (env : Env) (args : List PyVal) (kwargs : List (Str × PyVal)) (d : List (Str × PyVal)) (unk : Str)
    (n : Int) (op : Op) (hb : bound subwordParams args kwargs = some [.dict d, .str unk, .int n])
    (hu : continues unk = false) (h : create env "SpanSubwords" args kwargs = .ok op) (l : List Str)
    (hl : ∀ w ∈ l, PlainWord w) :
    (∃ ps : List Str, Gives op (.list (l.map Tok.str)) (.list (ps.map Tok.str))) ∧
    ∀ ps : List Str, Gives op (.list (l.map Tok.str)) (.list (ps.map Tok.str)) →
      List.Forall₂ (fun w r => Covered (d.map Prod.fst) n w ∧ r = w ∨ ¬ Covered (d.map Prod.fst) n w ∧ r = unk) l
        (readBack ps) := by
  obtain ⟨subs, h1, h2⟩ := subwords_gives env args kwargs d unk n op hb h
  refine ⟨⟨_, h2 l⟩, fun ps hp => ?_⟩
  have e := gives_unique hp (h2 l)
  cases map_str_inj (Seq.list.inj e)
  exact (glue_all hu subs l hl fun w _ => h1 w).2

/-- C118: a list of covered words is exactly what is read back. -/
theorem C118_covered (env : Env) (args : List PyVal) (kwargs : List (Str × PyVal)) (d : List (Str × PyVal)) (unk : Str)
    (n : Int) (op : Op) (hb : bound subwordParams args kwargs = some [.dict d, .str unk, .int n])
    (hu : continues unk = false) (h : create env "SpanSubwords" args kwargs = .ok op) (l : List Str)
    (hl : ∀ w ∈ l, PlainWord w ∧ Covered (d.map Prod.fst) n w) (ps : List Str)
    (hp : Gives op (.list (l.map Tok.str)) (.list (ps.map Tok.str))) : readBack ps = l := by
  have := (C118_read_back env args kwargs d unk n op hb hu h l fun w hw => (hl w hw).1).2 ps hp
  replace hl : ∀ w ∈ l, Covered (d.map Prod.fst) n w := fun w hw => (hl w hw).2
  clear hp
  revert this
  generalize readBack ps = m
  intro this
  induction this with
  | nil => rfl
  | cons h1 _ ih =>
    rw [ih fun w hw => hl w (.tail _ hw)]
    rcases h1 with ⟨_, rfl⟩ | ⟨h1, _⟩
    · rfl
    · exact absurd (hl _ (.head _)) h1

theorem wordPieces_inj {rs rs' : List Str} (h : wordPieces rs = wordPieces rs') : rs = rs' := by
  cases rs with
  | nil =>
    cases rs' with
    | nil => rfl
    | cons => cases h
  | cons r rs =>
    cases rs' with
    | nil => cases h
    | cons r' rs' =>
      obtain ⟨h1, h2⟩ := List.cons.inj h
      have h1 : r = r' := h1
      have h2 := List.map_injective_iff.mpr (fun a b (e : wordPiece false a = wordPiece false b) => by
        simpa [wordPiece] using e) h2
      rw [h1, h2]

/-- The pieces up to the next one that starts a word. -/
theorem blocks_inj (p q : Str) (ps qs : List Str) (xs ys : List Str) (hps : ∀ x ∈ ps, continues x = true)
    (hqs : ∀ x ∈ qs, continues x = true) (hx : ∀ x ∈ xs.head?, continues x = false) (hy : ∀ x ∈ ys.head?, continues x = false)
    (h : (p :: ps) ++ xs = (q :: qs) ++ ys) : p :: ps = q :: qs ∧ xs = ys := by
  obtain ⟨h0, h'⟩ := List.cons.inj h
  replace h : ps ++ xs = qs ++ ys := h'
  clear h'
  subst h0
  induction ps generalizing qs with
  | nil =>
    cases qs with
    | nil => exact ⟨rfl, h⟩
    | cons b qs =>
      have h : xs = b :: (qs ++ ys) := h
      have := hx b (by rw [h]; rfl)
      rw [hqs b (.head _)] at this
      cases this
  | cons a ps ih =>
    cases qs with
    | nil =>
      have h : a :: (ps ++ xs) = ys := h
      have := hy a (by rw [← h]; rfl)
      rw [hps a (.head _)] at this
      cases this
    | cons b qs =>
      obtain ⟨h1, h2⟩ := List.cons.inj h
      subst h1
      obtain ⟨h3, h4⟩ := ih qs (fun x hx => hps x (.tail _ hx)) (fun x hx => hqs x (.tail _ hx)) h2
      exact ⟨by rw [(List.cons.inj h3).2], h4⟩

theorem pieces_block {vocab : List Str} {unk : Str} {n : Int} {w : Str} {ps : List Str} (hu : continues unk = false)
    (hw : PlainWord w) (h : PiecesOf vocab unk n w ps) :
    ∃ q qs, ps = q :: qs ∧ continues q = false ∧ ∀ x ∈ qs, continues x = true := by
  rcases h with ⟨h1, rs, h2, rfl⟩ | ⟨h1, rfl⟩
  · have e := C33_concatenates _ _ _ _ h2
    cases rs with
    | nil => exact absurd e.symm hw.1
    | cons r rs =>
      refine ⟨r, _, rfl, ?_, fun x hx => ?_⟩
      · refine continues_false_prefix (rest := rs.flatten) ?_
        have := hw.2
        rwa [← e] at this
      · obtain ⟨r', _, rfl⟩ := List.mem_map.mp hx
        rfl
  · exact ⟨unk, [], rfl, hu, fun x hx => (by cases hx)⟩

theorem head_pieces {vocab : List Str} {unk : Str} {n : Int} (hu : continues unk = false) {subs : Str → List Str}
    (hs : ∀ w, PiecesOf vocab unk n w (subs w)) {l : List Str} (hl : ∀ w ∈ l, PlainWord w) :
    ∀ x ∈ (l.flatMap subs).head?, continues x = false := by
  intro x hx
  cases l with
  | nil => cases hx
  | cons w l =>
    obtain ⟨q, qs, e, h1, _⟩ := pieces_block hu (hl w (.head _)) (hs w)
    rw [List.flatMap_cons, e] at hx
    cases hx
    exact h1

theorem flatMap_pieces_inj {vocab : List Str} {unk : Str} {n : Int} (hu : continues unk = false) {subs : Str → List Str}
    (hs : ∀ w, PiecesOf vocab unk n w (subs w)) : ∀ {l m : List Str}, (∀ w ∈ l, PlainWord w) → (∀ w ∈ m, PlainWord w) →
      l.flatMap subs = m.flatMap subs → l.map subs = m.map subs
  | [], [], _, _, _ => rfl
  | [], w :: m, _, hm, h => by
    obtain ⟨q, qs, e, _⟩ := pieces_block hu (hm w (.head _)) (hs w)
    rw [List.flatMap_cons, e] at h
    cases h
  | w :: l, [], hl, _, h => by
    obtain ⟨q, qs, e, _⟩ := pieces_block hu (hl w (.head _)) (hs w)
    rw [List.flatMap_cons, e] at h
    cases h
  | w :: l, v :: m, hl, hm, h => by
    have hl' : ∀ w ∈ l, PlainWord w := fun x hx => hl x (.tail _ hx)
    have hm' : ∀ w ∈ m, PlainWord w := fun x hx => hm x (.tail _ hx)
    obtain ⟨p, ps, e, _, h1⟩ := pieces_block hu (hl w (.head _)) (hs w)
    obtain ⟨q, qs, e', _, h2⟩ := pieces_block hu (hm v (.head _)) (hs v)
    rw [List.flatMap_cons, List.flatMap_cons, e, e'] at h
    obtain ⟨h3, h4⟩ := blocks_inj p q ps qs _ _ h1 h2 (head_pieces hu hs hl') (head_pieces hu hs hm') h
    rw [List.map_cons, List.map_cons, e, e', h3, flatMap_pieces_inj hu hs hl' hm' h4]

theorem pieces_unk {vocab : List Str} {unk : Str} {n : Int} {w : Str} {ps : List Str} (hne : w ≠ [])
    (h : PiecesOf vocab unk n w ps) : ps = [unk] ↔ MadeUnknown vocab unk n w := by
  rcases h with ⟨h1, rs, h2, rfl⟩ | ⟨h1, rfl⟩
  · have hc : Covered vocab n w := ⟨h1, rs, h2⟩
    constructor
    · intro e
      have e' := wordPieces_inj (rs' := [unk]) e
      subst e'
      have e2 := C33_concatenates _ _ _ _ h2
      have e2 : unk = w := by simpa using e2
      exact Or.inr ⟨e2.symm, e2 ▸ List.contains_iff_mem.mp h2.2.1⟩
    · rintro (h | ⟨rfl, h⟩)
      · exact absurd hc h
      · have g : Greedy (fun w => vocab.contains w) true w [w] := by
          refine ⟨hne, List.contains_iff_mem.mpr h, fun r' hr hlt => ?_, [], (List.append_nil w).symm, rfl⟩
          have := hr.length_le
          omega
        have k1 := C33_segmentation _ [] n w _ h1 h2
        have k2 := C33_segmentation _ [] n w _ h1 g
        rw [k1] at k2
        exact Except.ok.inj k2
  · refine ⟨fun _ => Or.inl ?_, fun _ => rfl⟩
    rintro ⟨h2, h3⟩
    rcases h1 with h1 | h1
    · omega
    · exact h1 h3

/-- C118: two lists of words have the same pieces exactly if they differ only in words that become the unknown token. -/
theorem C118_same_pieces (env : Env) (args : List PyVal) (kwargs : List (Str × PyVal)) (d : List (Str × PyVal)) (unk : Str)
    (n : Int) (op : Op) (hb : bound subwordParams args kwargs = some [.dict d, .str unk, .int n])
    (hu : continues unk = false) (h : create env "SpanSubwords" args kwargs = .ok op) (l m : List Str)
    (hl : ∀ w ∈ l, PlainWord w) (hm : ∀ w ∈ m, PlainWord w) :
    Confuses op (.list (l.map Tok.str)) (.list (m.map Tok.str)) ↔ List.Forall₂ (fun x y => x = y ∨
      MadeUnknown (d.map Prod.fst) unk n x ∧ MadeUnknown (d.map Prod.fst) unk n y) l m := by
  obtain ⟨subs, h1, h2⟩ := subwords_gives env args kwargs d unk n op hb h
  rw [confuses_gives (h2 l) (h2 m)]
  have e1 : (Seq.list ((l.flatMap subs).map Tok.str) = .list ((m.flatMap subs).map Tok.str)) ↔ l.map subs = m.map subs := by
    constructor
    · intro e
      exact flatMap_pieces_inj hu h1 hl hm (map_str_inj (Seq.list.inj e))
    · intro e
      rw [List.flatMap_def, List.flatMap_def, e]
  rw [e1, map_eq_iff_forall₂]
  have key : ∀ x y, PlainWord x → PlainWord y → (subs x = subs y ↔ (x = y ∨
      MadeUnknown (d.map Prod.fst) unk n x ∧ MadeUnknown (d.map Prod.fst) unk n y)) := by
    intro x y hx hy
    rw [← pieces_unk hx.1 (h1 x), ← pieces_unk hy.1 (h1 y)]
    constructor
    · intro e
      rcases h1 x with ⟨_, rs, g, e'⟩ | ⟨_, e'⟩
      · rcases h1 y with ⟨_, rs', g', e''⟩ | ⟨_, e''⟩
        · rw [e', e''] at e
          cases wordPieces_inj e
          exact Or.inl ((C33_concatenates _ _ _ _ g).symm.trans (C33_concatenates _ _ _ _ g'))
        · exact Or.inr ⟨e.trans e'', e''⟩
      · exact Or.inr ⟨e', e.symm.trans e'⟩
    · rintro (rfl | ⟨h, h'⟩)
      · rfl
      · rw [h, h']
  clear e1 h2
  constructor
  · intro hf
    induction hf with
    | nil => exact .nil
    | cons h3 _ ih =>
      exact .cons ((key _ _ (hl _ (.head _)) (hm _ (.head _))).mp h3)
        (ih (fun w hw => hl w (.tail _ hw)) fun w hw => hm w (.tail _ hw))
  · intro hf
    induction hf with
    | nil => exact .nil
    | cons h3 _ ih =>
      exact .cons ((key _ _ (hl _ (.head _)) (hm _ (.head _))).mpr h3)
        (ih (fun w hw => hl w (.tail _ hw)) fun w hw => hm w (.tail _ hw))

/-- C118: splitting the words read back gives the pieces again, when the unknown token is itself kept whole. -/
theorem C118_again (env : Env) (args : List PyVal) (kwargs : List (Str × PyVal)) (d : List (Str × PyVal)) (unk : Str)
    (n : Int) (op : Op) (hb : bound subwordParams args kwargs = some [.dict d, .str unk, .int n])
    (hu : PlainWord unk) (hk : MadeUnknown (d.map Prod.fst) unk n unk) (h : create env "SpanSubwords" args kwargs = .ok op)
    (l : List Str) (hl : ∀ w ∈ l, PlainWord w) (ps : List Str)
    (hp : Gives op (.list (l.map Tok.str)) (.list (ps.map Tok.str))) :
    Gives op (.list ((readBack ps).map Tok.str)) (.list (ps.map Tok.str)) := by
  obtain ⟨subs, h1, h2⟩ := subwords_gives env args kwargs d unk n op hb h
  have hf := (C118_read_back env args kwargs d unk n op hb hu.2 h l hl).2 ps hp
  have e := map_str_inj (Seq.list.inj (gives_unique hp (h2 l)))
  have hg := h2 (readBack ps)
  have e' : ∀ {l m : List Str}, (∀ w ∈ l, PlainWord w) → List.Forall₂ (fun w r => Covered (d.map Prod.fst) n w ∧ r = w ∨
      ¬ Covered (d.map Prod.fst) n w ∧ r = unk) l m → m.flatMap subs = l.flatMap subs := by
    intro l m hl hf
    induction hf with
    | nil => rfl
    | cons h3 _ ih =>
      rw [List.flatMap_cons, List.flatMap_cons, ih fun w hw => hl w (.tail _ hw)]
      rcases h3 with ⟨_, rfl⟩ | ⟨h3, rfl⟩
      · rfl
      · rw [(pieces_unk hu.1 (h1 _)).mpr hk, (pieces_unk (hl _ (.head _)).1 (h1 _)).mpr (Or.inl h3)]
  rwa [e' hl hf, ← e] at hg

theorem plain_of_alone {w : Str} (hne : w ≠ []) (h : '#' ∈ w → w = ['#']) : PlainWord w := by
  refine ⟨hne, ?_⟩
  unfold continues
  split
  · have := h (.head _)
    cases this
  · rfl

/-- C118: the tokenizers give plain words: the two that make punctuation marks tokens of their own on every text,
`WhiteSpaceTokenizer` on texts without `#`. -/
theorem C118_plain (env : Env) (op : Op) (s : Str) (h : Made env "EngTokenizer" op ∨ Made env "ZhCharTokenizer" op ∨
      Made env "WhiteSpaceTokenizer" op ∧ '#' ∉ s) :
    ∃ ws : List Str, Gives op (.str s) (.list (ws.map Tok.str)) ∧ ∀ w ∈ ws, PlainWord w := by
  have alone : ∀ {own : Char → Bool} {ps : List (Str × Str)} {tail : Str}, TokenizedBy own s ps tail → own '#' = true →
      ∀ w ∈ ps.map Prod.snd, PlainWord w := by
    intro own ps tail ht ho w hw
    obtain ⟨q, hq, rfl⟩ := List.mem_map.mp hw
    exact plain_of_alone (ht.nonempty q hq) fun hc => ht.alone q hq _ hc ho
  rcases h with h | h | ⟨h, hs⟩
  · rw [made_simple (env := env) (name := "EngTokenizer") rfl h]
    obtain ⟨a, ps, tail, h1, h2, _⟩ := C40_C42_eng env.σ env.u s
    exact ⟨_, ⟨a, tokOp_transform h1⟩, alone h2 ((C17_punctuation _ _).mpr (Or.inl (by decide)))⟩
  · rw [made_simple (env := env) (name := "ZhCharTokenizer") rfl h]
    obtain ⟨a, ps, tail, h1, h2, _⟩ := C40_C42_zh env.σ env.u s
    exact ⟨_, ⟨a, tokOp_transform h1⟩,
      alone h2 (by rw [(C17_punctuation _ _).mpr (Or.inl (by decide))]; rfl)⟩
  · rw [made_simple (env := env) (name := "WhiteSpaceTokenizer") rfl h]
    obtain ⟨a, ps, tail, h1, h2, _⟩ := C39_C42_whitespace env.σ s
    refine ⟨_, ⟨a, tokOp_transform h1⟩, fun w hw => ?_⟩
    obtain ⟨q, hq, rfl⟩ := List.mem_map.mp hw
    refine plain_of_alone (h2.nonempty q hq) fun hc => absurd ?_ hs
    have e := C39_C40_join _ _ _ _ h2
    have : '#' ∈ (ps.map Prod.snd).flatten := List.mem_flatten.mpr ⟨_, hw, hc⟩
    rw [e] at this
    exact (List.mem_filter.mp this).1

/-- C118: the pipe of a tokenizer and `SpanSubwords`: the pieces of a text read back are its words, with the unknown token
in place of those that are not covered. -/
theorem C118_pipe (env : Env) (tok : Op) (s : Str) (ht : Made env "EngTokenizer" tok ∨ Made env "ZhCharTokenizer" tok ∨
      Made env "WhiteSpaceTokenizer" tok ∧ '#' ∉ s) (args : List PyVal) (kwargs : List (Str × PyVal))
    (d : List (Str × PyVal)) (unk : Str) (n : Int) (op : Op)
    (hb : bound subwordParams args kwargs = some [.dict d, .str unk, .int n]) (hu : continues unk = false)
    (h : create env "SpanSubwords" args kwargs = .ok op) (cks : List (Str × Int)) :
    ∃ (ws ps : List Str) (as : List Aligner) (coll : List Seq), Gives tok (.str s) (.list (ws.map Tok.str)) ∧
      (⟨[tok, op], cks⟩ : Pipe).transformSequence (.str s) = .ok (.list (ps.map Tok.str), as, coll) ∧
      List.Forall₂ (fun w r => Covered (d.map Prod.fst) n w ∧ r = w ∨ ¬ Covered (d.map Prod.fst) n w ∧ r = unk) ws
        (readBack ps) := by
  obtain ⟨ws, h1, h2⟩ := C118_plain env tok s ht
  obtain ⟨⟨ps, h3⟩, h4⟩ := C118_read_back env args kwargs d unk n op hb hu h ws h2
  have h5 := h4 ps h3
  obtain ⟨a, h1'⟩ := h1
  obtain ⟨b, h3⟩ := h3
  exact ⟨ws, ps, _, _, ⟨a, h1'⟩, (C58_composition _ _ _ _ _).mpr ⟨_, .cons h1' (.cons h3 (.nil _)), rfl, rfl, rfl⟩, h5⟩

/-- C118: the full BERT pipe, where stripping accents works character by character and makes no `#`: the pieces read back
are the words of the basic pipe. -/
theorem C118_bert (env : Env) (he : env.Sane) (s : Str) (f : Char → Char) (hf : Charwise env.u f s)
    (hh : ∀ c, f c = '#' → c = '#') :
    ∃ (b p : Pipe) (ws ps : List Str) (as as' : List Aligner) (coll coll' : List Seq),
      Bert.basicPipe (Builtin.registryDefault env) = .ok b ∧ Bert.fullPipe (Builtin.registryDefault env) = .ok p ∧
      b.transformSequence (.str s) = .ok (.list (ws.map Tok.str), as, coll) ∧
      p.transformSequence (.str s) = .ok (.list (ps.map Tok.str), as', coll') ∧
      List.Forall₂ (fun w r => Covered fullEntries 200 w ∧ r = w ∨ ¬ Covered fullEntries 200 w ∧ r = "[UNK]".toList) ws
        (readBack ps) := by
  obtain ⟨ps, tail, h1, h2, _⟩ := C68_alone env.u s
  obtain ⟨b, as, coll, hb, h3, _⟩ := C68_tokens env s f hf ps tail h1
  obtain ⟨b', p, hb', hp, _, h4⟩ := C68_full env he s
  rw [hb] at hb'
  cases hb'
  obtain ⟨words, subs, a, e, h5, ⟨coll', h6⟩, _⟩ := h4 _ _ _ h3
  have e : words = ps.map fun q => q.2.map f := by
    apply map_str_inj
    rw [← Seq.list.inj e, List.map_map]
    rfl
  have hw : ∀ w ∈ words, PlainWord w := by
    intro w hw
    rw [e] at hw
    obtain ⟨q, hq, rfl⟩ := List.mem_map.mp hw
    refine plain_of_alone (by simpa using h1.nonempty q hq) fun hc => ?_
    obtain ⟨c, hc, e2⟩ := List.mem_map.mp hc
    cases hh c e2
    have : q.2 = ['#'] := h2 q hq _ hc (by
      unfold standsAlone
      rw [← punctuation_eq, (C17_punctuation _ _).mpr (Or.inl (by decide))]
      rfl)
    rw [this]
    show [f '#'] = ['#']
    rw [e2]
  rw [← List.map_flatMap] at h6
  refine ⟨b, p, words, words.flatMap subs, as, _, coll, coll', hb, hp, ?_, h6, ?_⟩
  · rw [h3, e, List.map_map]
    rfl
  · refine (glue_all (vocab := fullEntries) (n := 200) (by decide) subs words hw fun w _ => ?_).2
    rcases h5 w with ⟨h, rs, g, e⟩ | ⟨h, e⟩
    · exact Or.inl ⟨by omega, rs, g, e⟩
    · exact Or.inr ⟨h.imp (fun h => by omega) id, e⟩

/-- C118 needs words without the mark, words that are not empty, and an unknown token without the mark: otherwise
different lists of words, none of them unknown but the last, have the same pieces. -/
theorem C118_limits :
    ∃ op op' : Op,
      create exEnv "SpanSubwords" [.dict [("x".toList, .int 0), ("##a".toList, .int 1)], .str "?".toList, .int 9] [] = .ok op ∧
      create exEnv "SpanSubwords" [.dict [("x".toList, .int 0), ("##a".toList, .int 1)], .str "##a".toList, .int 9] [] = .ok op' ∧
      Gives op (.list [.str "xa".toList]) (.list [.str "x".toList, .str "##a".toList]) ∧
      Gives op (.list [.str "x".toList, .str "##a".toList]) (.list [.str "x".toList, .str "##a".toList]) ∧
      Gives op (.list [.str "x".toList, .str []]) (.list [.str "x".toList]) ∧
      Gives op (.list [.str "x".toList]) (.list [.str "x".toList]) ∧
      Gives op' (.list [.str "xa".toList]) (.list [.str "x".toList, .str "##a".toList]) ∧
      Gives op' (.list [.str "x".toList, .str "y".toList]) (.list [.str "x".toList, .str "##a".toList]) :=
  ⟨_, _, rfl, rfl, ⟨_, rfl⟩, ⟨_, rfl⟩, ⟨_, rfl⟩, ⟨_, rfl⟩, ⟨_, rfl⟩, ⟨_, rfl⟩⟩

/-! ### examples -/

/-- The words "xaa", "b" and "x" with the vocabulary "x", "##a": "b" is not covered. -/
example : ∃ op ps, create exEnv "SpanSubwords" [.dict [("x".toList, .int 0), ("##a".toList, .int 1)], .str "?".toList, .int 9] []
      = .ok op ∧ (∀ w ∈ ["xaa".toList, "b".toList, "x".toList], PlainWord w) ∧ continues "?".toList = false ∧
    Gives op (.list [.str "xaa".toList, .str "b".toList, .str "x".toList]) (.list (ps.map Tok.str)) ∧
    readBack ps = ["xaa".toList, "?".toList, "x".toList] :=
  ⟨_, ["x".toList, "##a".toList, "##a".toList, "?".toList, "x".toList], rfl, by unfold PlainWord; decide, rfl, ⟨_, rfl⟩, by decide⟩

/-- "xaa" is covered. -/
theorem xaa_covered : Covered ["x".toList, "##a".toList] 9 "xaa".toList := by
  refine ⟨by decide, Classical.byContradiction fun h => ?_⟩
  have h1 := C33_unknown (fun w => ["x".toList, "##a".toList].contains w) "?".toList 9 "xaa".toList (Or.inr h)
  have h2 : SpanSubwords.spanSubwords (fun w => ["x".toList, "##a".toList].contains w) "?".toList 9 "xaa".toList =
    .ok ["x".toList, "##a".toList, "##a".toList] := rfl
  rw [h1] at h2
  cases h2

example : ∃ op ps, create exEnv "SpanSubwords" [.dict [("x".toList, .int 0), ("##a".toList, .int 1)], .str "?".toList, .int 9] []
      = .ok op ∧ Gives op (.list [.str "xaa".toList]) (.list (ps.map Tok.str)) ∧ readBack ps = ["xaa".toList] :=
  ⟨_, ["x".toList, "##a".toList, "##a".toList], rfl, ⟨_, rfl⟩, C118_covered exEnv
    [.dict [("x".toList, .int 0), ("##a".toList, .int 1)], .str "?".toList, .int 9] []
    [("x".toList, .int 0), ("##a".toList, .int 1)] "?".toList 9 _ rfl rfl rfl ["xaa".toList]
    (fun w hw => by rw [List.mem_singleton.mp hw]; exact ⟨by unfold PlainWord; decide, xaa_covered⟩) _ ⟨_, rfl⟩⟩

/-- The unknown token "?" is not covered and so kept whole. -/
example : PlainWord "?".toList ∧ MadeUnknown ["x".toList, "##a".toList] "?".toList 9 "?".toList := by
  refine ⟨by unfold PlainWord; decide, Or.inl fun ⟨_, rs, h⟩ => ?_⟩
  have h1 := C33_segmentation (fun w => ["x".toList, "##a".toList].contains w) "!".toList 9 "?".toList rs (by decide) h
  have h2 : SpanSubwords.spanSubwords (fun w => ["x".toList, "##a".toList].contains w) "!".toList 9 "?".toList =
    .ok ["!".toList] := rfl
  rw [h1] at h2
  cases wordPieces_inj (rs' := ["!".toList]) (Except.ok.inj h2)
  exact absurd h.2.1 (by decide)

/-- Two unknown words are confused; a word and its prefix are not. -/
example : ∃ op, create exEnv "SpanSubwords" [.dict [("x".toList, .int 0), ("##a".toList, .int 1)], .str "?".toList, .int 9] []
      = .ok op ∧ Confuses op (.list [.str "x".toList, .str "b".toList]) (.list [.str "x".toList, .str "c".toList]) ∧
      ¬ Confuses op (.list [.str "xaa".toList]) (.list [.str "xa".toList]) := by
  refine ⟨_, rfl, ⟨_, _, _, rfl, rfl⟩, fun h => ?_⟩
  have := (C118_same_pieces exEnv
    [.dict [("x".toList, .int 0), ("##a".toList, .int 1)], .str "?".toList, .int 9] []
    [("x".toList, .int 0), ("##a".toList, .int 1)] "?".toList 9 _ rfl rfl rfl ["xaa".toList] ["xa".toList] (by unfold PlainWord; decide)
    (by unfold PlainWord; decide)).mp h
  cases this with
  | cons h _ =>
    rcases h with h | ⟨h | ⟨h, _⟩, _⟩
    · exact absurd h (by decide)
    · exact h xaa_covered
    · exact absurd h (by decide)

/-- `EngTokenizer` and `SpanSubwords` on "## xa". -/
example : ∃ tok op ps as coll, Made exEnv "EngTokenizer" tok ∧
    create exEnv "SpanSubwords" [.dict [("x".toList, .int 0), ("##a".toList, .int 1)], .str "?".toList, .int 9] [] = .ok op ∧
    (⟨[tok, op], []⟩ : Pipe).transformSequence (.str "## xa".toList) = .ok (.list (ps.map Tok.str), as, coll) ∧
    readBack ps = ["?".toList, "?".toList, "xa".toList] :=
  ⟨_, _, ["?".toList, "?".toList, "x".toList, "##a".toList], _, _, ⟨[], [], rfl⟩, rfl, rfl, by decide⟩

/-- The full pipe on "Unwanted". -/
example : ∃ (p : Pipe) (ps : List Str) (as : List Aligner) (coll : List Seq),
    Bert.fullPipe (Builtin.registryDefault exEnv) = .ok p ∧
    p.transformSequence (.str "Unwanted".toList) = .ok (.list (ps.map Tok.str), as, coll) ∧
    List.Forall₂ (fun w r => Covered fullEntries 200 w ∧ r = w ∨ ¬ Covered fullEntries 200 w ∧ r = "[UNK]".toList)
      ["unwanted".toList] (readBack ps) := by
  obtain ⟨b, p, ws, ps, as, as', coll, coll', h1, h2, h3, h4, h5⟩ := C118_bert exEnv exEnv_sane "Unwanted".toList _
    (exEnv_charwise _ (by decide)) (fun c h => by
      by_cases e : c = 'é'
      · simp only [e, if_true] at h
        exact absurd h (by decide)
      · simpa [e] using h)
  refine ⟨p, ps, as', coll', h2, h4, ?_⟩
  have e : ws = ["unwanted".toList] := by
    obtain ⟨b', hb', h, _⟩ := C68_basic exEnv exEnv_sane "Unwanted".toList
    rw [h1] at hb'
    cases hb'
    obtain ⟨_, _, h, _⟩ := h (by decide)
    rw [h3] at h
    injection h with h
    injection h with h
    rw [map_str_inj (Seq.list.inj h)]
    decide
  rw [← e]
  exact h5

end Uttut
