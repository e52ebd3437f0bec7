import Verif.Model.Registry
import Verif.Props.Serialize
import Mathlib.Data.List.Nodup
import Mathlib.Data.Finset.Card

/-! C67: when two registries are equal. -/

namespace Uttut

open Spec

theorem registerAll_keys (regs : List (Str × OpClass)) (f : Factory) (hf : (f.map Prod.fst).Nodup) :
    ((registerAll f regs).map Prod.fst).Nodup := by
  induction regs generalizing f with
  | nil => exact hf
  | cons r regs ih =>
    refine ih _ ?_
    show ((f.register r.1 r.2).1.map Prod.fst).Nodup
    by_cases h : r.1 ∈ f.map Prod.fst
    · rw [(C67_register f r.1 r.2).1 h]
      exact hf
    · rw [(C67_register f r.1 r.2).2 h, List.map_append]
      exact List.nodup_append.mpr ⟨hf, by simp, by
        intro a ha b hb
        obtain rfl : b = r.1 := by simpa using hb
        exact fun e => h (e ▸ ha)⟩

theorem factory_get_same (f g : Factory) (name : Str) : f.get name = g.get name ↔ dictGet f name = dictGet g name := by
  unfold Factory.get
  constructor
  · intro h
    cases hf : dictGet f name <;> cases hg : dictGet g name <;> rw [hf, hg] at h <;> cases h <;> rfl
  · intro h
    rw [h]

/-- C67: two registries are equal exactly if they answer every lookup alike, in whatever order the classes were
registered and whatever registrations failed; no registry equals another object. -/
theorem C67_equal (same : OpClass → OpClass → Bool) (hs : ∀ a b, same a b = true ↔ a = b) (regs regs' : List (Str × OpClass)) :
    ((registerAll [] regs).eq same (some (registerAll [] regs')) = true ↔
      ∀ name, (registerAll [] regs).get name = (registerAll [] regs').get name) ∧
    (registerAll [] regs).eq same none = false := by
  refine ⟨?_, rfl⟩
  have nf := registerAll_keys regs [] (by simp)
  have ng := registerAll_keys regs' [] (by simp)
  generalize registerAll [] regs = f at nf ⊢
  generalize registerAll [] regs' = g at ng ⊢
  simp only [factory_get_same]
  unfold Factory.eq
  rw [Bool.and_eq_true, beq_iff_eq, List.all_eq_true]
  constructor
  · rintro ⟨hl, h⟩ name
    have sub : ∀ kv ∈ f, kv ∈ g := by
      intro kv hk
      have := h kv hk
      split at this
      · rename_i c hc
        have h2 := dictGet_mem g kv.1 c hc
        rwa [← (hs _ _).mp this] at h2
      · cases this
    have keys : ∀ k, k ∈ g.map Prod.fst → k ∈ f.map Prod.fst := by
      have hsub : f.map Prod.fst ⊆ g.map Prod.fst := List.map_subset _ sub
      have hp : (f.map Prod.fst).Perm (g.map Prod.fst) :=
        (List.subperm_of_subset nf hsub).perm_of_length_le (by simp [hl])
      exact fun k hk => hp.mem_iff.mpr hk
    cases hf : dictGet f name with
    | some c => exact (dictGet_of_mem g name c ng (sub _ (dictGet_mem f name c hf))).symm
    | none =>
      refine ((dictGet_none g name).mpr fun hk => ?_).symm
      exact (dictGet_none f name).mp hf (keys name hk)
  · intro h
    have mem : ∀ kv, kv ∈ f ↔ kv ∈ g := by
      intro kv
      exact ⟨fun hk => dictGet_mem g _ _ (h kv.1 ▸ dictGet_of_mem f kv.1 kv.2 nf hk),
        fun hk => dictGet_mem f _ _ ((h kv.1).symm ▸ dictGet_of_mem g kv.1 kv.2 ng hk)⟩
    refine ⟨((List.perm_ext_iff_of_nodup (List.Nodup.of_map _ nf) (List.Nodup.of_map _ ng)).mpr mem).length_eq, ?_⟩
    intro kv hk
    rw [dictGet_of_mem g kv.1 kv.2 ng ((mem kv).mp hk)]
    exact (hs _ _).mpr rfl

/-- Two classes registered in either order. -/
example (same : OpClass → OpClass → Bool) (hs : ∀ a b, same a b = true ↔ a = b) (c d : OpClass) :
    (registerAll [] [("A".toList, c), ("B".toList, d)]).eq same
      (some (registerAll [] [("B".toList, d), ("A".toList, c), ("A".toList, d)])) = true := by
  refine (C67_equal same hs _ _).1.mpr fun name => ?_
  rw [factory_get_same]
  show dictGet [("A".toList, c), ("B".toList, d)] name = dictGet [("B".toList, d), ("A".toList, c)] name
  unfold dictGet dictGet
  by_cases h1 : "A".toList = name
  · rw [if_pos h1, if_neg (by rw [← h1]; decide)]
    unfold dictGet
    rw [if_pos h1]
  · rw [if_neg h1]
    unfold dictGet
    rw [if_neg h1]

end Uttut
