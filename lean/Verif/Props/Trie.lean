import Verif.Lemmas.Dict
import Verif.Lemmas.Ops
import Verif.Model.Trie

/-! Property C36: the trie of user words. -/

namespace Uttut

open Spec

/-- The word stored at the end of a path. -/
def TrieNode.find : TrieNode → Str → Option Str
  | n, [] => n.truthyWord
  | n, c :: cs =>
    match n.getChild c with
    | none => none
    | some n' => n'.find cs

theorem find_empty (p : Str) : TrieNode.empty.find p = none := by
  cases p with
  | nil => rfl
  | cons c p => rfl

/-- The non-empty word `w` as a stored value. -/
def stored (w : Str) : Option Str := if w = [] then none else some w

theorem insertAux_spec (w rest : Str) (n : TrieNode) :
    (n.find rest = none → ∃ n', TrieNode.insertAux w rest n = .ok n' ∧
      ∀ p, n'.find p = if p = rest then stored w else n.find p) ∧
    (n.find rest ≠ none → TrieNode.insertAux w rest n = .error .attributeError) := by
  induction rest generalizing n with
  | nil =>
    unfold TrieNode.insertAux TrieNode.setWord
    constructor
    · intro h
      rw [show n.truthyWord = none from h]
      refine ⟨_, rfl, fun p => ?_⟩
      cases p with
      | nil =>
        rw [if_pos rfl]
        cases w <;> rfl
      | cons c p =>
        rw [if_neg (by simp)]
        rfl
    · intro h
      cases hw : n.truthyWord with
      | none => exact absurd hw h
      | some v => rfl
  | cons c cs ih =>
    have hchild : n.find (c :: cs) = ((n.getChild c).getD TrieNode.empty).find cs := by
      simp only [TrieNode.find]
      cases n.getChild c with
      | none => simp [find_empty]
      | some m => rfl
    obtain ⟨h1, h2⟩ := ih ((n.getChild c).getD TrieNode.empty)
    rw [← hchild] at h1 h2
    refine ⟨fun h => ?_, fun h => ?_⟩
    · obtain ⟨m, hm, hf⟩ := h1 h
      refine ⟨.mk n.word (dictSet n.children c m), ?_, fun p => ?_⟩
      · simp only [TrieNode.insertAux, hm, Except.bind_ok]
        rfl
      · cases p with
        | nil =>
          rw [if_neg (by simp)]
          cases n with
          | mk v ds =>
            simp only [TrieNode.find, TrieNode.word, TrieNode.children]
            cases v with
            | none => rfl
            | some v => cases v <;> rfl
        | cons d p =>
          have hg : (TrieNode.mk n.word (dictSet n.children c m)).getChild d =
              if c = d then some m else n.getChild d := dictGet_dictSet _ _ _ _
          simp only [TrieNode.find, hg]
          by_cases hd : c = d
          · subst hd
            simp only [if_true, hf, List.cons.injEq, true_and]
            by_cases hp : p = cs
            · simp [hp]
            · rw [if_neg hp, if_neg hp]
              cases hg : n.getChild c with
              | none => simp only [Option.getD_none, find_empty]
              | some m' => simp only [Option.getD_some]
          · simp only [if_neg hd, List.cons.injEq]
            rw [if_neg (fun e => hd e.1.symm)]
    · simp only [TrieNode.insertAux, h2 h]
      rfl

/-- The trie holds exactly the non-empty words of `ws`. -/
def Holds (t : Trie) (ws : List Str) : Prop :=
  ∀ p, TrieNode.find t p = if p ∈ ws ∧ p ≠ [] then some p else none

theorem insert_spec (t : Trie) (ws : List Str) (h : Holds t ws) (w : Str) :
    ((w ∉ ws ∨ w = []) → ∃ t', t.insert w = .ok t' ∧ Holds t' (w :: ws)) ∧
    (w ∈ ws ∧ w ≠ [] → t.insert w = .error .attributeError) := by
  obtain ⟨h1, h2⟩ := insertAux_spec w w t
  refine ⟨fun hw => ?_, fun hw => h2 (by rw [h w, if_pos hw]; simp)⟩
  obtain ⟨t', ht, hf⟩ := h1 (by
    rw [h w, if_neg]
    rintro ⟨a, b⟩
    exact hw.elim (fun x => x a) b)
  refine ⟨t', ht, fun p => ?_⟩
  rw [hf p, h p]
  by_cases hp : p = w
  · subst hp
    unfold stored
    by_cases he : p = [] <;> simp [he]
  · simp [hp]

theorem insertAll_spec (ws vs : List Str) (t : Trie) (h : Holds t vs) :
    (((ws ++ vs).filter fun w => w ≠ []).Nodup →
      ∃ t', ws.foldlM (fun t w => Trie.insert t w) t = .ok t' ∧ Holds t' (ws ++ vs)) ∧
    ((vs.filter fun w => w ≠ []).Nodup → ¬ ((ws ++ vs).filter fun w => w ≠ []).Nodup →
      ws.foldlM (fun t w => Trie.insert t w) t = .error .attributeError) := by
  induction ws generalizing t vs with
  | nil => exact ⟨fun _ => ⟨t, rfl, h⟩, fun h1 h2 => absurd h1 h2⟩
  | cons w ws ih =>
    obtain ⟨i1, i2⟩ := insert_spec t vs h w
    have hperm : ((ws ++ w :: vs).filter fun w => w ≠ []).Perm ((w :: ws ++ vs).filter fun w => w ≠ []) :=
      List.Perm.filter _ List.perm_middle
    have hmem : ∀ p, p ∈ ws ++ w :: vs ↔ p ∈ w :: ws ++ vs := fun p => List.perm_middle.mem_iff
    by_cases hw : w ∉ vs ∨ w = []
    · obtain ⟨t', ht, hh⟩ := i1 hw
      obtain ⟨j1, j2⟩ := ih (w :: vs) t' hh
      have e : (w :: ws).foldlM (fun t w => Trie.insert t w) t
          = ws.foldlM (fun t w => Trie.insert t w) t' := by
        rw [List.foldlM_cons, ht]; rfl
      rw [e]
      refine ⟨fun hnd => ?_, fun h1 h2 => ?_⟩
      · obtain ⟨t'', h1, h2⟩ := j1 (hperm.nodup_iff.mpr hnd)
        refine ⟨t'', h1, fun p => ?_⟩
        rw [h2 p]
        simp only [hmem p]
      · refine j2 ?_ (fun hn => h2 (hperm.nodup_iff.mp hn))
        by_cases he : w = []
        · rw [List.filter_cons_of_neg (by simp [he])]; exact h1
        · rw [List.filter_cons_of_pos (by simp [he])]
          refine List.nodup_cons.mpr ⟨fun hm => ?_, h1⟩
          exact hw.elim (fun x => x (List.mem_filter.mp hm).1) he
    · have hw' : w ∈ vs ∧ w ≠ [] :=
        ⟨Classical.byContradiction fun h => hw (Or.inl h), fun h => hw (Or.inr h)⟩
      refine ⟨fun hnd => ?_, fun _ _ => ?_⟩
      · exfalso
        rw [List.cons_append, List.filter_cons_of_pos (by simp [hw'.2])] at hnd
        exact (List.nodup_cons.mp hnd).1 (List.mem_filter.mpr ⟨by simp [hw'.1], by simp [hw'.2]⟩)
      · rw [List.foldlM_cons, i2 hw']; rfl

theorem holds_empty : Holds TrieNode.empty [] := fun p => by
  rw [find_empty, if_neg (by simp)]

theorem exactlySearch_find (t : Trie) (w : Str) : t.exactlySearch w = (TrieNode.find t w).isSome := by
  induction w generalizing t with
  | nil => rfl
  | cons c cs ih =>
    simp only [Trie.exactlySearch, TrieNode.find]
    cases t.getChild c with
    | none => rfl
    | some n => exact ih n

theorem find_cons_none {n : TrieNode} {c : Char} (h : n.getChild c = none) (p : Str) :
    n.find (c :: p) = none := by
  simp only [TrieNode.find, h]

theorem find_cons_some {n n' : TrieNode} {c : Char} (h : n.getChild c = some n') (p : Str) :
    n.find (c :: p) = n'.find p := by
  simp only [TrieNode.find, h]

theorem matchLoop_long (text : Str) (n : TrieNode) (acc : Option Str) :
    ((∀ p, p <+: text → p ≠ [] → n.find p = none) ∧ Trie.matchLoop false n acc text = acc) ∨
    (∃ p w, p <+: text ∧ p ≠ [] ∧ n.find p = some w ∧ Trie.matchLoop false n acc text = some w ∧
      ∀ q, q <+: text → p.length < q.length → n.find q = none) := by
  induction text generalizing n acc with
  | nil => exact Or.inl ⟨fun p hp hne => absurd (List.prefix_nil.mp hp) hne, rfl⟩
  | cons c cs ih =>
    unfold Trie.matchLoop
    cases hc : n.getChild c with
    | none =>
      refine Or.inl ⟨fun p hp hne => ?_, rfl⟩
      cases p with
      | nil => exact absurd rfl hne
      | cons d p =>
        rw [(List.cons_prefix_cons.mp hp).1]
        exact find_cons_none hc p
    | some n' =>
      dsimp only
      simp only [Bool.false_eq_true, if_false]
      have hq : ∀ d q, d :: q <+: c :: cs → n.find (d :: q) = n'.find q ∧ q <+: cs := by
        intro d q h
        obtain ⟨e, h'⟩ := List.cons_prefix_cons.mp h
        subst e
        exact ⟨find_cons_some hc q, h'⟩
      have key : ∀ acc', (Trie.matchLoop false n' acc' cs = acc' ∧ ∀ p, p <+: cs → p ≠ [] → n'.find p = none) ∨
          (∃ p w, p <+: c :: cs ∧ p ≠ [] ∧ n.find p = some w ∧ Trie.matchLoop false n' acc' cs = some w ∧
            ∀ q, q <+: c :: cs → p.length < q.length → n.find q = none) := by
        intro acc'
        rcases ih n' acc' with ⟨h1, h2⟩ | ⟨p, w, h1, h2, h3, h4, h5⟩
        · exact Or.inl ⟨h2, h1⟩
        · refine Or.inr ⟨c :: p, w, List.cons_prefix_cons.mpr ⟨rfl, h1⟩, by simp, ?_, h4, ?_⟩
          · rw [find_cons_some hc, h3]
          · intro q hq' hl
            cases q with
            | nil => simp at hl
            | cons d q =>
              obtain ⟨e1, e2⟩ := hq d q hq'
              rw [e1]
              exact h5 q e2 (by simpa using hl)
      cases hw : n'.truthyWord with
      | none =>
        dsimp only
        rcases key acc with ⟨h1, h2⟩ | h
        · refine Or.inl ⟨fun p hp hne => ?_, h1⟩
          cases p with
          | nil => exact absurd rfl hne
          | cons d p =>
            obtain ⟨e1, e2⟩ := hq d p hp
            rw [e1]
            cases p with
            | nil => exact hw
            | cons e p => exact h2 _ e2 (by simp)
        · exact Or.inr h
      | some w =>
        dsimp only
        rcases key (some w) with ⟨h1, h2⟩ | h
        · refine Or.inr ⟨[c], w, by simp, by simp, ?_, h1, ?_⟩
          · rw [find_cons_some hc]; exact hw
          · intro q hq' hl
            cases q with
            | nil => simp at hl
            | cons d q =>
              obtain ⟨e1, e2⟩ := hq d q hq'
              rw [e1]
              exact h2 q e2 (by rintro rfl; simp at hl)
        · exact Or.inr h

theorem matchLoop_short (text : Str) (n : TrieNode) (acc : Option Str) :
    ((∀ p, p <+: text → p ≠ [] → n.find p = none) ∧ Trie.matchLoop true n acc text = acc) ∨
    (∃ p w, p <+: text ∧ p ≠ [] ∧ n.find p = some w ∧ Trie.matchLoop true n acc text = some w ∧
      ∀ q, q <+: text → q ≠ [] → q.length < p.length → n.find q = none) := by
  induction text generalizing n acc with
  | nil => exact Or.inl ⟨fun p hp hne => absurd (List.prefix_nil.mp hp) hne, rfl⟩
  | cons c cs ih =>
    unfold Trie.matchLoop
    cases hc : n.getChild c with
    | none =>
      refine Or.inl ⟨fun p hp hne => ?_, rfl⟩
      cases p with
      | nil => exact absurd rfl hne
      | cons d p =>
        rw [(List.cons_prefix_cons.mp hp).1]
        exact find_cons_none hc p
    | some n' =>
      dsimp only
      have hq : ∀ d q, d :: q <+: c :: cs → n.find (d :: q) = n'.find q ∧ q <+: cs := by
        intro d q h
        obtain ⟨e, h'⟩ := List.cons_prefix_cons.mp h
        subst e
        exact ⟨find_cons_some hc q, h'⟩
      cases hw : n'.truthyWord with
      | none =>
        dsimp only
        rcases ih n' acc with ⟨h1, h2⟩ | ⟨p, w, h1, h2, h3, h4, h5⟩
        · refine Or.inl ⟨fun p hp hne => ?_, h2⟩
          cases p with
          | nil => exact absurd rfl hne
          | cons d p =>
            obtain ⟨e1, e2⟩ := hq d p hp
            rw [e1]
            cases p with
            | nil => exact hw
            | cons e p => exact h1 _ e2 (by simp)
        · refine Or.inr ⟨c :: p, w, List.cons_prefix_cons.mpr ⟨rfl, h1⟩, by simp, ?_, h4, ?_⟩
          · rw [find_cons_some hc, h3]
          · intro q hq' hne hl
            cases q with
            | nil => exact absurd rfl hne
            | cons d q =>
              obtain ⟨e1, e2⟩ := hq d q hq'
              rw [e1]
              cases q with
              | nil => exact hw
              | cons e q => exact h5 _ e2 (by simp) (by simpa using hl)
      | some w =>
        simp only [if_true]
        refine Or.inr ⟨[c], w, by simp, by simp, ?_, rfl, ?_⟩
        · rw [find_cons_some hc]; exact hw
        · intro q _ hne hl
          have := List.length_pos_iff.mpr hne
          simp at hl
          exact absurd hl hne

theorem matchPrefix_best (t : Trie) (ws : List Str) (h : Holds t ws) (text : Str) (shortest : Bool) :
    BestWord ws shortest text (t.matchPrefix text shortest) := by
  have hnone : (∀ p, p <+: text → p ≠ [] → TrieNode.find t p = none) →
      BestWord ws shortest text none := by
    intro hn v hv hne hp
    have := hn v hp hne
    rw [h v, if_pos ⟨hv, hne⟩] at this
    exact absurd this (by simp)
  have hsome : ∀ p w, TrieNode.find t p = some w → p = w ∧ w ∈ ws := by
    intro p w hpw
    rw [h p] at hpw
    split at hpw
    · rename_i hc
      injection hpw with hpw
      subst hpw
      exact ⟨rfl, hc.1⟩
    · simp at hpw
  unfold Trie.matchPrefix
  cases shortest with
  | false =>
    rcases matchLoop_long text t none with ⟨h1, h2⟩ | ⟨p, w, h1, h2, h3, h4, h5⟩
    · rw [h2]; exact hnone h1
    · rw [h4]
      obtain ⟨rfl, hw⟩ := hsome p w h3
      refine ⟨hw, h2, h1, fun v hv hne hp => ?_⟩
      simp only [Bool.false_eq_true, if_false]
      apply Classical.byContradiction
      intro hlt
      have := h5 v hp (by omega)
      rw [h v, if_pos ⟨hv, hne⟩] at this
      simp at this
  | true =>
    rcases matchLoop_short text t none with ⟨h1, h2⟩ | ⟨p, w, h1, h2, h3, h4, h5⟩
    · rw [h2]; exact hnone h1
    · rw [h4]
      obtain ⟨rfl, hw⟩ := hsome p w h3
      refine ⟨hw, h2, h1, fun v hv hne hp => ?_⟩
      simp only [if_true]
      apply Classical.byContradiction
      intro hlt
      have := h5 v hp hne (by omega)
      rw [h v, if_pos ⟨hv, hne⟩] at this
      simp at this

theorem ofUserWords_holds (ws : List Str) (t : Trie) (h : Trie.ofUserWords ws = .ok t) :
    Holds t ws ∧ ws ≠ [] := by
  unfold Trie.ofUserWords at h
  split at h
  · simp at h
  · rename_i hl
    have hne : ws ≠ [] := by rintro rfl; simp at hl
    refine ⟨?_, hne⟩
    obtain ⟨h1, h2⟩ := insertAll_spec ws [] _ holds_empty
    rw [List.append_nil] at h1 h2
    by_cases hnd : (ws.filter fun w => w ≠ []).Nodup
    · obtain ⟨t', e1, e2⟩ := h1 hnd
      rw [e1] at h
      injection h with h
      exact h ▸ e2
    · rw [h2 (by simp) hnd] at h
      simp at h

/-- C36: a trie can be built from a list of words iff the list is not empty (ValueError) and no non-empty
word is repeated (AttributeError). -/
theorem C36_build (ws : List Str) :
    ((∃ t, Trie.ofUserWords ws = .ok t) ↔ ws ≠ [] ∧ (ws.filter fun w => w ≠ []).Nodup) ∧
    (ws = [] → Trie.ofUserWords ws = .error .valueError) ∧
    (ws ≠ [] → ¬ (ws.filter fun w => w ≠ []).Nodup → Trie.ofUserWords ws = .error .attributeError) := by
  obtain ⟨h1, h2⟩ := insertAll_spec ws [] _ holds_empty
  rw [List.append_nil] at h1 h2
  have hlen : ws ≠ [] → ¬ ws.length < 1 := fun h => by
    have := List.length_pos_iff.mpr h
    omega
  have herr : ws ≠ [] → ¬ (ws.filter fun w => w ≠ []).Nodup →
      Trie.ofUserWords ws = .error .attributeError := by
    intro hne hnd
    unfold Trie.ofUserWords
    rw [if_neg (hlen hne)]
    exact h2 (by simp) hnd
  refine ⟨⟨?_, ?_⟩, ?_, herr⟩
  · rintro ⟨t, ht⟩
    have hne := (ofUserWords_holds ws t ht).2
    refine ⟨hne, Classical.byContradiction fun hnd => ?_⟩
    rw [herr hne hnd] at ht
    simp at ht
  · rintro ⟨hne, hnd⟩
    obtain ⟨t, e1, _⟩ := h1 hnd
    refine ⟨t, ?_⟩
    unfold Trie.ofUserWords
    rw [if_neg (hlen hne), e1]
  · rintro rfl
    rfl

/-- C36: membership is exact; empty words are not members. -/
theorem C36_membership (ws : List Str) (t : Trie) (ht : Trie.ofUserWords ws = .ok t) (w : Str) :
    t.exactlySearch w = true ↔ w ∈ ws ∧ w ≠ [] := by
  rw [exactlySearch_find, (ofUserWords_holds ws t ht).1 w]
  by_cases h : w ∈ ws ∧ w ≠ []
  · simp [h]
  · simp [h]

/-- C36: `match_prefix` returns the longest (shortest) word that starts the text, `None` if there is none. -/
theorem C36_match_prefix (ws : List Str) (t : Trie) (ht : Trie.ofUserWords ws = .ok t) (text : Str)
    (shortest : Bool) : BestWord ws shortest text (t.matchPrefix text shortest) :=
  matchPrefix_best t ws (ofUserWords_holds ws t ht).1 text shortest

/-- The best word is unique: two words of the same length that start the same text are equal. -/
theorem bestWord_unique {ws : List Str} {shortest : Bool} {text : Str} {r r' : Option Str}
    (h : BestWord ws shortest text r) (h' : BestWord ws shortest text r') : r = r' := by
  cases r with
  | none =>
    cases r' with
    | none => rfl
    | some w => exact absurd h'.2.2.1 (h w h'.1 h'.2.1)
  | some v =>
    cases r' with
    | none => exact absurd h.2.2.1 (h' v h.1 h.2.1)
    | some w =>
      have a := h.2.2.2 w h'.1 h'.2.1 h'.2.2.1
      have b := h'.2.2.2 v h.1 h.2.1 h.2.2.1
      have hl : v.length = w.length := by cases shortest <;> simp at a b <;> omega
      congr 1
      exact List.IsPrefix.eq_of_length (List.prefix_of_prefix_length_le h.2.2.1 h'.2.2.1 (by omega)) hl

/-- C36: the answers do not depend on the order in which the words were inserted. -/
theorem C36_order_irrelevant (ws vs : List Str) (hp : ws.Perm vs) (t : Trie)
    (ht : Trie.ofUserWords ws = .ok t) :
    ∃ t', Trie.ofUserWords vs = .ok t' ∧ (∀ w, t'.exactlySearch w = t.exactlySearch w) ∧
      ∀ text shortest, t'.matchPrefix text shortest = t.matchPrefix text shortest := by
  obtain ⟨hne, hnd⟩ := (C36_build ws).1.mp ⟨t, ht⟩
  obtain ⟨t', ht'⟩ := (C36_build vs).1.mpr
    ⟨fun e => hne (by subst e; exact List.perm_nil.mp hp), (hp.filter _).nodup_iff.mp hnd⟩
  refine ⟨t', ht', fun w => ?_, fun text shortest => ?_⟩
  · have e1 := C36_membership ws t ht w
    have e2 := C36_membership vs t' ht' w
    rw [← hp.mem_iff, ← e1] at e2
    exact Bool.eq_iff_iff.mpr e2
  · refine bestWord_unique (C36_match_prefix vs t' ht' text shortest) ?_
    have := C36_match_prefix ws t ht text shortest
    revert this
    cases t.matchPrefix text shortest with
    | none => exact fun h v hv => h v (hp.mem_iff.mpr hv)
    | some w => exact fun h => ⟨hp.mem_iff.mp h.1, h.2.1, h.2.2.1, fun v hv => h.2.2.2 v (hp.mem_iff.mpr hv)⟩

-- a dictionary with a word that is a prefix of another, and the empty word
example : ∃ t, Trie.ofUserWords ["ab".toList, "abc".toList, [], "b".toList] = .ok t ∧
    t.matchPrefix "abcd".toList false = some "abc".toList ∧
    t.matchPrefix "abcd".toList true = some "ab".toList ∧
    t.matchPrefix "cab".toList false = none := by
  exact ⟨_, rfl, by decide, by decide, by decide⟩

example : Trie.ofUserWords ["ab".toList, "ab".toList] = .error .attributeError :=
  (C36_build _).2.2 (by decide) (by decide)

end Uttut
