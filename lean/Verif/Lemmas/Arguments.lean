import Verif.Lemmas.Honest
import Verif.Model.Builtins

/-! Facts about the constructor arguments of the built-in operators. -/

namespace Uttut

theorem insertWords_strings (t : Trie) (ws : List Str) :
    Builtin.insertWords t (ws.map PyVal.str) = ws.foldlM (fun t w => Trie.insert t w) t := by
  induction ws generalizing t with
  | nil => rfl
  | cons w ws ih =>
    rw [List.map_cons, List.foldlM_cons]
    show (Trie.insert t w >>= fun t => Builtin.insertWords t (ws.map PyVal.str)) = _
    refine congrArg _ (funext fun t => ih t)

/-- Any value whose elements are strings gives the words those strings are. -/
theorem userWords_elements {v : PyVal} {ws : List Str} (h : v.elements = .ok (ws.map PyVal.str)) :
    Builtin.userWords v = Trie.ofUserWords ws := by
  have h2 : Builtin.userWords v = (v.elements >>= fun vs =>
      if vs.length < 1 then .error .valueError else Builtin.insertWords TrieNode.empty vs) := by
    cases v with
    | none => cases h
    | _ => rfl
  rw [h2, h]
  show (if (ws.map PyVal.str).length < 1 then _ else _) = _
  rw [insertWords_strings, List.length_map]
  rfl

theorem userWords_list (ws : List Str) : Builtin.userWords (.list (ws.map PyVal.str)) = Trie.ofUserWords ws :=
  userWords_elements rfl

theorem asStr_ok {v : PyVal} {s : Str} (h : v.asStr = .ok s) : v = .str s := by
  cases v with
  | str t => injection h with h; rw [h]
  | _ => cases h

theorem insertWords_ok {t t' : Trie} {vs : List PyVal} (h : Builtin.insertWords t vs = .ok t') :
    ∃ ws : List Str, vs = ws.map PyVal.str ∧ ws.foldlM (fun t w => Trie.insert t w) t = .ok t' := by
  induction vs generalizing t with
  | nil => exact ⟨[], rfl, h⟩
  | cons v vs ih =>
    obtain ⟨w, hw, h⟩ := bind_eq_ok h
    obtain ⟨t1, ht, h⟩ := bind_eq_ok h
    obtain ⟨ws, rfl, h2⟩ := ih h
    refine ⟨w :: ws, by rw [asStr_ok hw]; rfl, ?_⟩
    rw [List.foldlM_cons, ht]
    exact h2

theorem replaceNoStr_ok {env : Env} {m : Matcher} {s : Str} {r : Str × Aligner}
    (h : Builtin.replaceNoStr env m s = .ok r) : ReplaceAwithB.transform env.σ m [' '] s = .ok r := by
  obtain ⟨⟨out', a1⟩, h3, h4⟩ := bind_eq_ok h
  dsimp only at h4
  split at h4
  · cases h4
  · injection h4 with h4
    rw [h3, h4]

theorem spanSubwordsRun_ok {env : Env} {vocab n : PyVal} {unk : Str} {l : List Tok} {r : List Tok × Aligner}
    (h : Builtin.spanSubwordsRun env vocab unk n l = .ok r) :
    ∃ has k, SpanSubwords.transform env.σ has unk k l = .ok r ∧ (n.asInt = .ok k ∨ l = []) := by
  unfold Builtin.spanSubwordsRun at h
  split at h
  · rename_i k has hk _
    exact ⟨has, k, h, Or.inl hk⟩
  · rename_i k e hk _
    split at h
    · cases h
    · exact ⟨_, k, h, Or.inl hk⟩
  · split at h
    · rename_i hl
      exact ⟨_, _, h, Or.inr (List.isEmpty_iff.mp hl)⟩
    · cases h

theorem userWords_ok {v : PyVal} {t : Trie} (h : Builtin.userWords v = .ok t) :
    ∃ ws, Trie.ofUserWords ws = .ok t := by
  unfold Builtin.userWords at h
  split at h
  · cases h
  · obtain ⟨vs, _, h⟩ := bind_eq_ok h
    split at h
    · cases h
    · rename_i hl
      obtain ⟨ws, rfl, h2⟩ := insertWords_ok h
      refine ⟨ws, ?_⟩
      unfold Trie.ofUserWords
      rw [List.length_map] at hl
      rw [if_neg hl]
      exact h2

end Uttut
