import Verif.Lemmas.Sort

/-! Lemmas about finalising replacement groups (`ReplacementGroup.done`). -/

namespace Uttut

variable {V : Type}

/-- Order of the finalised group: by start, then by end. -/
def Rep.LexLe (a b : Rep V) : Prop := a.start < b.start ∨ (a.start = b.start ∧ a.stop ≤ b.stop)

/-- `a` ends at or before the start of `b`. -/
def Rep.Before (a b : Rep V) : Prop := a.stop ≤ b.start

/-- `a` comes before `b` and they occupy different spans. -/
def Rep.Sep (a b : Rep V) : Prop := a.stop ≤ b.start ∧ ¬(a.start = b.start ∧ a.stop = b.stop)

namespace ReplacementGroup

theorem sortReps_perm (l : List (Rep V)) : (sortReps l).Perm l :=
  (pySorted_perm _ _).trans (pySorted_perm _ _)

theorem sortReps_lex (l : List (Rep V)) : (sortReps l).Pairwise Rep.LexLe := by
  have h := pySorted_pairwise_lex (fun r : Rep V => (r.start : Int)) _ _
    (pySorted_pairwise (fun r : Rep V => (r.stop : Int)) l)
  exact h.imp (fun {a b} hab => by
    unfold LexKey at hab; unfold Rep.LexLe; dsimp only at hab
    rcases hab with h | h
    · left; omega
    · right; omega)

theorem validateDisjoint_go (rs : List (Rep V)) (hwf : ∀ r ∈ rs, r.start ≤ r.stop) (cur : Nat) :
    validateDisjoint.go cur (rs.map fun r => (r.start, r.stop)) = .ok () ↔
      (∀ r ∈ rs, cur ≤ r.start) ∧ rs.Pairwise Rep.Before := by
  induction rs generalizing cur with
  | nil => simp [validateDisjoint.go]
  | cons r rs ih =>
    have h1 := hwf r (by simp)
    simp only [List.map_cons, validateDisjoint.go, List.mem_cons, forall_eq_or_imp,
      List.pairwise_cons]
    split
    · simp; omega
    · rw [ih (fun q hq => hwf q (by simp [hq]))]
      constructor
      · rintro ⟨h2, h3⟩
        exact ⟨⟨by omega, fun q hq => by have := h2 q hq; omega⟩, h2, h3⟩
      · rintro ⟨h2, h3, h4⟩
        exact ⟨h3, h4⟩

theorem validateDisjoint_go_error (cur : Nat) (l : List (Nat × Nat)) :
    validateDisjoint.go cur l = .ok () ∨ validateDisjoint.go cur l = .error .valueError := by
  induction l generalizing cur with
  | nil => simp [validateDisjoint.go]
  | cons p l ih =>
    obtain ⟨s, e⟩ := p
    unfold validateDisjoint.go
    split
    · simp
    · exact ih e

theorem validateDisjoint_ok (rs : List (Rep V)) (hne : rs ≠ []) (hwf : ∀ r ∈ rs, r.start ≤ r.stop) :
    validateDisjoint (rs.map fun r => (r.start, r.stop)) = .ok () ↔ rs.Pairwise Rep.Before := by
  cases rs with
  | nil => exact absurd rfl hne
  | cons r rs =>
    simp only [List.map_cons, validateDisjoint, List.pairwise_cons]
    rw [validateDisjoint_go rs (fun q hq => hwf q (by simp [hq]))]
    simp [Rep.Before]

theorem validateDisjoint_error (l : List (Nat × Nat)) (hne : l ≠ []) :
    validateDisjoint l = .ok () ∨ validateDisjoint l = .error .valueError := by
  cases l with
  | nil => exact absurd rfl hne
  | cons p l => exact validateDisjoint_go_error _ _

/-- On a lexicographically sorted duplicate-free list, pairwise disjointness in any order is the same
as each element preceding all later ones. -/
theorem pairwise_before_iff (rs : List (Rep V)) (hwf : ∀ r ∈ rs, r.start ≤ r.stop)
    (hlex : rs.Pairwise Rep.LexLe) (hnd : rs.Nodup) :
    rs.Pairwise Rep.Before ↔
      ∀ a ∈ rs, ∀ b ∈ rs, a ≠ b → a.stop ≤ b.start ∨ b.stop ≤ a.start := by
  induction rs with
  | nil => simp
  | cons r rs ih =>
    rw [List.pairwise_cons] at hlex ⊢
    rw [List.nodup_cons] at hnd
    rw [ih (fun q hq => hwf q (by simp [hq])) hlex.2 hnd.2]
    have hr := hwf r (by simp)
    constructor
    · rintro ⟨h1, h2⟩ a ha b hb hab
      rcases List.mem_cons.mp ha with rfl | ha' <;> rcases List.mem_cons.mp hb with rfl | hb'
      · exact absurd rfl hab
      · exact Or.inl (h1 b hb')
      · exact Or.inr (h1 a ha')
      · exact h2 a ha' b hb' hab
    · intro h
      refine ⟨fun q hq => ?_, fun a ha b hb hab => h a (by simp [ha]) b (by simp [hb]) hab⟩
      have hne : r ≠ q := by rintro rfl; exact hnd.1 hq
      have hq' := hwf q (by simp [hq])
      have hl := hlex.1 q hq
      unfold Rep.LexLe at hl
      unfold Rep.Before
      rcases h r (by simp) q (by simp [hq]) hne with h | h
      · exact h
      · omega

variable [NewValue V]

theorem validateNewValues_ok (rs : List (Rep V)) (hne : rs ≠ []) :
    (validateNewValues rs = .ok () ↔
      ∀ a ∈ rs, ∀ b ∈ rs, NewValue.kind a.val = NewValue.kind b.val) ∧
    (validateNewValues rs = .ok () ∨ validateNewValues rs = .error .typeError) := by
  cases rs with
  | nil => exact absurd rfl hne
  | cons r rs =>
    simp only [validateNewValues]
    split
    · rename_i h
      rw [List.all_eq_true] at h
      refine ⟨⟨fun _ a ha b hb => ?_, fun _ => rfl⟩, Or.inl rfl⟩
      have h1 := of_decide_eq_true (h a ha)
      have h2 := of_decide_eq_true (h b hb)
      rw [h1, h2]
    · rename_i h
      refine ⟨⟨fun h' => by simp at h', fun h' => absurd ?_ h⟩, Or.inr rfl⟩
      rw [List.all_eq_true]
      intro a ha
      exact decide_eq_true (h' a ha r (by simp))

variable [DecidableEq V]

/-- What `done` returns, in terms of the members of the group. -/
theorem done_spec (σ : SetOrder) (g : ReplacementGroup V) (hwf : ∀ r ∈ g.reps, r.start ≤ r.stop) :
    let Kinds := ∀ a ∈ g.reps, ∀ b ∈ g.reps, NewValue.kind a.val = NewValue.kind b.val
    let Disj := ∀ a ∈ g.reps, ∀ b ∈ g.reps, a ≠ b → a.stop ≤ b.start ∨ b.stop ≤ a.start
    (Kinds → Disj → g.done σ = .ok ⟨sortReps (σ.listSet g.reps), true⟩) ∧
    (¬ Kinds → g.done σ = .error .typeError) ∧
    (Kinds → ¬ Disj → g.done σ = .error .valueError) := by
  intro Kinds Disj
  have hmem : ∀ {x}, x ∈ σ.listSet g.reps ↔ x ∈ g.reps := mem_listSet
  by_cases hne : σ.listSet g.reps = []
  · have hg : g.reps = [] := by
      cases hr : g.reps with
      | nil => rfl
      | cons x xs =>
        have : x ∈ σ.listSet g.reps := hmem.mpr (by simp [hr])
        rw [hne] at this; simp at this
    have hd : g.done σ = .ok ⟨sortReps (σ.listSet g.reps), true⟩ := by
      unfold done
      simp only [hne, List.length_nil, ne_eq, not_true_eq_false, false_and, if_false]
      rfl
    refine ⟨fun _ _ => hd, fun h => absurd ?_ h, fun _ h => absurd ?_ h⟩
    · intro a ha; rw [hg] at ha; simp at ha
    · intro a ha; rw [hg] at ha; simp at ha
  · have hlen : (σ.listSet g.reps).length ≠ 0 := by
      intro h; exact hne (List.length_eq_zero_iff.mp h)
    have hk := validateNewValues_ok (σ.listSet g.reps) hne
    have hperm := sortReps_perm (σ.listSet g.reps)
    have hsm : ∀ {x}, x ∈ sortReps (σ.listSet g.reps) ↔ x ∈ g.reps :=
      fun {x} => hperm.mem_iff.trans hmem
    have hsne : sortReps (σ.listSet g.reps) ≠ [] := by
      intro h; rw [h] at hperm; exact hne (List.Perm.eq_nil hperm.symm)
    have hswf : ∀ r ∈ sortReps (σ.listSet g.reps), r.start ≤ r.stop := fun r hr => hwf r (hsm.mp hr)
    have hv := validateDisjoint_ok _ hsne hswf
    have hb := pairwise_before_iff _ hswf (sortReps_lex _)
      (hperm.nodup_iff.mpr (nodup_listSet σ g.reps))
    have hkk : (∀ a ∈ σ.listSet g.reps, ∀ b ∈ σ.listSet g.reps,
        NewValue.kind a.val = NewValue.kind b.val) ↔ Kinds :=
      ⟨fun h a ha b hb => h a (hmem.mpr ha) b (hmem.mpr hb),
        fun h a ha b hb => h a (hmem.mp ha) b (hmem.mp hb)⟩
    have hdd : (∀ a ∈ sortReps (σ.listSet g.reps), ∀ b ∈ sortReps (σ.listSet g.reps),
        a ≠ b → a.stop ≤ b.start ∨ b.stop ≤ a.start) ↔ Disj :=
      ⟨fun h a ha b hb => h a (hsm.mpr ha) b (hsm.mpr hb),
        fun h a ha b hb => h a (hsm.mp ha) b (hsm.mp hb)⟩
    rw [hkk] at hk
    rw [hb, hdd] at hv
    have hunf : g.done σ = (do
        validateNewValues (σ.listSet g.reps)
        validateDisjoint ((sortReps (σ.listSet g.reps)).map fun r => (r.start, r.stop))
        return ⟨sortReps (σ.listSet g.reps), true⟩) := by
      unfold done
      rw [if_pos ⟨hlen, rfl⟩]
    rw [hunf]
    refine ⟨fun h1 h2 => ?_, fun h1 => ?_, fun h1 h2 => ?_⟩
    · rw [hk.1.mpr h1, hv.mpr h2]; rfl
    · rcases hk.2 with h | h
      · exact absurd (hk.1.mp h) h1
      · rw [h]; rfl
    · rw [hk.1.mpr h1]
      rcases validateDisjoint_error ((sortReps (σ.listSet g.reps)).map fun r => (r.start, r.stop))
        (by simpa using hsne) with h | h
      · exact absurd (hv.mp h) h2
      · rw [h]; rfl

omit [NewValue V] in
/-- The finalised group is canonical when no two members share their span. -/
theorem sortReps_listSet_unique (σ : SetOrder) (l l' : List (Rep V))
    (hmem : ∀ r, r ∈ l ↔ r ∈ l') (hnd : l'.Nodup) (hlex : l'.Pairwise Rep.LexLe)
    (hspan : ∀ a ∈ l', ∀ b ∈ l', a.start = b.start → a.stop = b.stop → a = b) :
    sortReps (σ.listSet l) = l' := by
  have hperm : (sortReps (σ.listSet l)).Perm l' := by
    rw [List.perm_ext_iff_of_nodup ((sortReps_perm _).nodup_iff.mpr (nodup_listSet σ l)) hnd]
    intro a
    rw [(sortReps_perm _).mem_iff, mem_listSet, hmem]
  refine List.Perm.eq_of_pairwise (fun a b ha hb h1 h2 => ?_) (sortReps_lex _) hlex hperm
  have ha' := hperm.mem_iff.mp ha
  unfold Rep.LexLe at h1 h2
  exact hspan a ha' b hb (by omega) (by omega)

/-- A separated list is left alone by `done`. -/
theorem done_of_sep [UniformKind V] (σ : SetOrder) (l : List (Rep V)) (d : Bool)
    (hwf : ∀ r ∈ l, r.start ≤ r.stop) (hsep : l.Pairwise Rep.Sep) :
    (⟨l, d⟩ : ReplacementGroup V).done σ = .ok ⟨l, true⟩ := by
  have hk : ∀ a ∈ l, ∀ b ∈ l, NewValue.kind a.val = NewValue.kind b.val :=
    fun a _ b _ => UniformKind.const _ _
  have hlex : l.Pairwise Rep.LexLe := by
    refine List.Pairwise.imp_of_mem (fun {a b} ha hb hab => ?_) hsep
    have := hwf a ha; have := hwf b hb
    unfold Rep.Sep at hab; unfold Rep.LexLe
    omega
  have hnd : l.Nodup := hsep.imp (fun {a b} hab => by
    rintro rfl; exact hab.2 ⟨rfl, rfl⟩)
  have hsym : ∀ a ∈ l, ∀ b ∈ l, a ≠ b → Rep.Sep a b ∨ Rep.Sep b a := by
    clear hlex hnd hk hwf
    induction l with
    | nil => simp
    | cons r rs ih =>
      rw [List.pairwise_cons] at hsep
      intro a ha b hb hab
      rcases List.mem_cons.mp ha with rfl | ha' <;> rcases List.mem_cons.mp hb with rfl | hb'
      · exact absurd rfl hab
      · exact Or.inl (hsep.1 b hb')
      · exact Or.inr (hsep.1 a ha')
      · exact ih hsep.2 a ha' b hb' hab
  have hdisj : ∀ a ∈ l, ∀ b ∈ l, a ≠ b → a.stop ≤ b.start ∨ b.stop ≤ a.start := by
    intro a ha b hb hab
    rcases hsym a ha b hb hab with h | h
    · exact Or.inl h.1
    · exact Or.inr h.1
  rw [(done_spec σ (⟨l, d⟩ : ReplacementGroup V) hwf).1 hk hdisj]
  rw [sortReps_listSet_unique σ l l (fun _ => Iff.rfl) hnd hlex]
  intro a ha b hb h1 h2
  by_cases hab : a = b
  · exact hab
  · rcases hsym a ha b hb hab with h | h
    · exact absurd ⟨h1, h2⟩ h.2
    · exact absurd ⟨h1.symm, h2.symm⟩ h.2

/-- A finalised group is a chain. -/
theorem done_chain (σ : SetOrder) (g g' : ReplacementGroup V)
    (hwf : ∀ r ∈ g.reps, r.start ≤ r.stop) (h : g.done σ = .ok g') :
    g'.isDone = true ∧ (∀ r ∈ g'.reps, r.start ≤ r.stop) ∧ g'.reps.Pairwise Rep.Before := by
  obtain ⟨h1, h2, h3⟩ := done_spec σ g hwf
  by_cases hk : ∀ a ∈ g.reps, ∀ b ∈ g.reps, NewValue.kind a.val = NewValue.kind b.val
  · by_cases hd : ∀ a ∈ g.reps, ∀ b ∈ g.reps, a ≠ b → a.stop ≤ b.start ∨ b.stop ≤ a.start
    · rw [h1 hk hd] at h
      injection h with h
      subst h
      have hsm : ∀ {x}, x ∈ sortReps (σ.listSet g.reps) ↔ x ∈ g.reps :=
        fun {x} => (sortReps_perm _).mem_iff.trans mem_listSet
      have hswf : ∀ r ∈ sortReps (σ.listSet g.reps), r.start ≤ r.stop :=
        fun r hr => hwf r (hsm.mp hr)
      refine ⟨rfl, hswf, ?_⟩
      rw [pairwise_before_iff _ hswf (sortReps_lex _)
        ((sortReps_perm _).nodup_iff.mpr (nodup_listSet σ g.reps))]
      exact fun a ha b hb => hd a (hsm.mp ha) b (hsm.mp hb)
    · rw [h3 hk hd] at h; simp at h
  · rw [h2 hk] at h; simp at h

omit [DecidableEq V] [NewValue V] in
theorem add_wf (g : ReplacementGroup V) (hwf : ∀ r ∈ g.reps, r.start ≤ r.stop) (a b : Nat) (v : V) :
    ∀ r ∈ (g.add a b v).reps, r.start ≤ r.stop := by
  unfold add Rep.new validateStartEnd
  by_cases hab : a > b
  · simp only [hab, if_true]
    exact hwf
  · simp only [hab, if_false]
    intro r hr
    simp only [bind, Except.bind, pure, Except.pure, List.mem_append, List.mem_singleton] at hr
    rcases hr with hr | rfl
    · exact hwf r hr
    · show a ≤ b
      omega

omit [DecidableEq V] [NewValue V] in
theorem add_of_le (g : ReplacementGroup V) {a b : Nat} (hab : a ≤ b) (v : V) :
    g.add a b v = ⟨g.reps ++ [⟨a, b, v⟩], g.isDone⟩ := by
  unfold add Rep.new validateStartEnd
  have : ¬ a > b := by omega
  simp only [this, if_false]
  rfl

end ReplacementGroup

end Uttut
