import Verif.Lemmas.Pipe

/-! The heap of pipe objects represents a world of pipe values. -/

namespace Uttut

/-- The heap `h` represents the world `w`: pipe objects have lists and dicts of their own, intermediates refer to the
dict of the pipe that produced them. -/
structure HeapRep (h : Heap) (w : World) : Prop where
  len : h.pipes.length = w.pipes.length
  pipes : ∀ (i l d : Nat), h.pipes[i]? = some (l, d) →
    ∃ p, w.pipes[i]? = some p ∧ h.lists[l]? = some p.steps ∧ h.dicts[d]? = some p.checkpoints
  lists : (h.pipes.map Prod.fst).Nodup
  dicts : (h.pipes.map Prod.snd).Nodup
  ilen : h.inters.length = w.inters.length
  inters : ∀ (k d : Nat) (coll : List Seq), h.inters[k]? = some (d, coll) →
    ∃ i l, w.inters[k]? = some (i, coll) ∧ h.pipes[i]? = some (l, d)

theorem heapRep_empty : HeapRep Heap.empty ⟨[], []⟩ :=
  ⟨rfl, fun i l d h => by simp [Heap.empty] at h, List.nodup_nil, List.nodup_nil, rfl,
    fun k d c h => by simp [Heap.empty] at h⟩

theorem HeapRep.read {h : Heap} {w : World} (r : HeapRep h w) (i : Nat) : h.read i = w.pipes[i]? := by
  unfold Heap.read
  cases hi : h.pipes[i]? with
  | none =>
    have : w.pipes.length ≤ i := by rw [← r.len]; exact List.getElem?_eq_none_iff.mp hi
    rw [List.getElem?_eq_none this]
    rfl
  | some ld =>
    obtain ⟨l, d⟩ := ld
    obtain ⟨p, h1, h2, h3⟩ := r.pipes i l d hi
    rw [h1]
    simp [h2, h3]

theorem nodup_map_getElem? {α β : Type} (f : α → β) (l : List α) (h : (l.map f).Nodup) (i j : Nat) (a b : α)
    (hi : l[i]? = some a) (hj : l[j]? = some b) (hf : f a = f b) : i = j := by
  obtain ⟨h1, rfl⟩ := List.getElem?_eq_some_iff.mp hi
  obtain ⟨h2, rfl⟩ := List.getElem?_eq_some_iff.mp hj
  refine (List.getElem?_inj (l := l.map f) (by simpa using h1) h).mp ?_
  simp [h1, h2, hf]

theorem HeapRep.write {h : Heap} {w : World} (r : HeapRep h w) (i : Nat) (q : Pipe) :
    HeapRep (h.write i q) (w.setPipe i q) := by
  unfold Heap.write
  cases hi : h.pipes[i]? with
  | none =>
    have : w.pipes.length ≤ i := by rw [← r.len]; exact List.getElem?_eq_none_iff.mp hi
    have e : w.setPipe i q = w := by
      unfold World.setPipe
      rw [List.set_eq_of_length_le this]
    rw [e]
    exact r
  | some ld =>
    obtain ⟨l, d⟩ := ld
    obtain ⟨p, h1, h2, h3⟩ := r.pipes i l d hi
    have hl : l < h.lists.length := (List.getElem?_eq_some_iff.mp h2).1
    have hd : d < h.dicts.length := (List.getElem?_eq_some_iff.mp h3).1
    have hip : i < w.pipes.length := (List.getElem?_eq_some_iff.mp h1).1
    refine ⟨by simp [World.setPipe, r.len], ?_, r.lists, r.dicts, r.ilen, r.inters⟩
    intro j l' d' hj
    show ∃ p, (w.pipes.set i q)[j]? = some p ∧ (h.lists.set l q.steps)[l']? = some p.steps ∧
      (h.dicts.set d q.checkpoints)[d']? = some p.checkpoints
    by_cases hij : i = j
    · subst hij
      have hj' : h.pipes[i]? = some (l', d') := hj
      rw [hi] at hj'
      injection hj' with hj'
      injection hj' with e1 e2
      subst e1; subst e2
      refine ⟨q, ?_, ?_, ?_⟩
      · rw [List.getElem?_set_self hip]
      · rw [List.getElem?_set_self hl]
      · rw [List.getElem?_set_self hd]
    · obtain ⟨p', g1, g2, g3⟩ := r.pipes j l' d' hj
      refine ⟨p', ?_, ?_, ?_⟩
      · rw [List.getElem?_set_ne hij]; exact g1
      · rw [List.getElem?_set_ne]
        · exact g2
        · rintro rfl
          exact hij (nodup_map_getElem? Prod.fst _ r.lists i j _ _ hi hj rfl)
      · rw [List.getElem?_set_ne]
        · exact g3
        · rintro rfl
          exact hij (nodup_map_getElem? Prod.snd _ r.dicts i j _ _ hi hj rfl)

theorem HeapRep.garbage {h : Heap} {w : World} (r : HeapRep h w) (x : List (List Op)) (y : List (List (Str × Int))) :
    HeapRep { h with lists := h.lists ++ x, dicts := h.dicts ++ y } w := by
  refine ⟨r.len, ?_, r.lists, r.dicts, r.ilen, r.inters⟩
  intro i l d hi
  obtain ⟨p, h1, h2, h3⟩ := r.pipes i l d hi
  refine ⟨p, h1, ?_, ?_⟩
  · show (h.lists ++ x)[l]? = _
    rw [List.getElem?_append_left (List.getElem?_eq_some_iff.mp h2).1]; exact h2
  · show (h.dicts ++ y)[d]? = _
    rw [List.getElem?_append_left (List.getElem?_eq_some_iff.mp h3).1]; exact h3

theorem HeapRep.alloc {h : Heap} {w : World} (r : HeapRep h w) (q : Pipe) : HeapRep (h.alloc q) (w.addPipe q) := by
  have g := r.garbage [q.steps] [q.checkpoints]
  refine ⟨by simp [Heap.alloc, World.addPipe, r.len], ?_, ?_, ?_, r.ilen, ?_⟩
  · intro i l d hi
    have hi' : (h.pipes ++ [(h.lists.length, h.dicts.length)])[i]? = some (l, d) := hi
    by_cases hlt : i < h.pipes.length
    · rw [List.getElem?_append_left hlt] at hi'
      obtain ⟨p, h1, h2, h3⟩ := g.pipes i l d hi'
      refine ⟨p, ?_, h2, h3⟩
      show (w.pipes ++ [q])[i]? = _
      rw [List.getElem?_append_left (by rw [← r.len]; exact hlt)]
      exact h1
    · rw [List.getElem?_append_right (by omega)] at hi'
      have hz : i - h.pipes.length = 0 := by
        by_cases h0 : i - h.pipes.length = 0
        · exact h0
        · rw [List.getElem?_eq_none (by simp; omega)] at hi'
          cases hi'
      rw [hz] at hi'
      injection hi' with hi'
      injection hi' with e1 e2
      subst e1; subst e2
      refine ⟨q, ?_, ?_, ?_⟩
      · show (w.pipes ++ [q])[i]? = _
        rw [List.getElem?_append_right (by rw [← r.len]; omega), ← r.len, hz]
        rfl
      · show (h.lists ++ [q.steps])[h.lists.length]? = _
        simp
      · show (h.dicts ++ [q.checkpoints])[h.dicts.length]? = _
        simp
  · show ((h.pipes ++ [(h.lists.length, h.dicts.length)]).map Prod.fst).Nodup
    rw [List.map_append, List.nodup_append]
    refine ⟨r.lists, by simp, ?_⟩
    intro a ha b hb
    obtain ⟨⟨l, d⟩, hm, rfl⟩ := List.mem_map.mp ha
    obtain ⟨i, hi⟩ := List.getElem?_of_mem hm
    obtain ⟨p, _, h2, _⟩ := r.pipes i l d hi
    have := (List.getElem?_eq_some_iff.mp h2).1
    simp at hb
    dsimp only
    omega
  · show ((h.pipes ++ [(h.lists.length, h.dicts.length)]).map Prod.snd).Nodup
    rw [List.map_append, List.nodup_append]
    refine ⟨r.dicts, by simp, ?_⟩
    intro a ha b hb
    obtain ⟨⟨l, d⟩, hm, rfl⟩ := List.mem_map.mp ha
    obtain ⟨i, hi⟩ := List.getElem?_of_mem hm
    obtain ⟨p, _, _, h3⟩ := r.pipes i l d hi
    have := (List.getElem?_eq_some_iff.mp h3).1
    simp at hb
    dsimp only
    omega
  · intro k d coll hk
    obtain ⟨i, l, h1, h2⟩ := r.inters k d coll hk
    refine ⟨i, l, h1, ?_⟩
    show (h.pipes ++ [(h.lists.length, h.dicts.length)])[i]? = _
    rw [List.getElem?_append_left (List.getElem?_eq_some_iff.mp h2).1]
    exact h2

/-- A pipe object that has just been made and is dropped again. -/
theorem HeapRep.forget {h : Heap} {w : World} (r : HeapRep h w) (q q' : Pipe) :
    HeapRep (((h.alloc q).write h.pipes.length q').forget) w := by
  have hp : (h.alloc q).pipes[h.pipes.length]? = some (h.lists.length, h.dicts.length) := by
    show (h.pipes ++ [(h.lists.length, h.dicts.length)])[h.pipes.length]? = _
    simp
  have e : ((h.alloc q).write h.pipes.length q').forget =
      { h with lists := h.lists ++ [q'.steps], dicts := h.dicts ++ [q'.checkpoints] } := by
    unfold Heap.write
    rw [hp]
    simp [Heap.forget, Heap.alloc]
  rw [e]
  exact r.garbage _ _

theorem HeapRep.record {h : Heap} {w : World} (r : HeapRep h w) (i : Nat) (p : Pipe) (hi : w.pipes[i]? = some p)
    (coll : List Seq) : HeapRep (h.record i coll) { w with inters := w.inters ++ [(i, coll)] } := by
  have hlt : i < h.pipes.length := by rw [r.len]; exact (List.getElem?_eq_some_iff.mp hi).1
  unfold Heap.record
  rw [List.getElem?_eq_getElem hlt]
  obtain ⟨l, d, hld⟩ : ∃ l d, h.pipes[i] = (l, d) := ⟨_, _, rfl⟩
  rw [hld]
  refine ⟨r.len, r.pipes, r.lists, r.dicts, by simp [r.ilen], ?_⟩
  intro k d' coll' hk
  have hk' : (h.inters ++ [(d, coll)])[k]? = some (d', coll') := hk
  show ∃ i' l', (w.inters ++ [(i, coll)])[k]? = some (i', coll') ∧ h.pipes[i']? = some (l', d')
  by_cases hl : k < h.inters.length
  · rw [List.getElem?_append_left hl] at hk'
    obtain ⟨i', l', h1, h2⟩ := r.inters k d' coll' hk'
    refine ⟨i', l', ?_, h2⟩
    rw [List.getElem?_append_left (by rw [← r.ilen]; exact hl)]
    exact h1
  · rw [List.getElem?_append_right (by omega)] at hk'
    have hz : k - h.inters.length = 0 := by
      by_cases h0 : k - h.inters.length = 0
      · exact h0
      · rw [List.getElem?_eq_none (by simp; omega)] at hk'
        cases hk'
    rw [hz] at hk'
    injection hk' with hk'
    injection hk' with e1 e2
    subst e1; subst e2
    refine ⟨i, l, ?_, ?_⟩
    · rw [List.getElem?_append_right (by rw [← r.ilen]; omega), ← r.ilen, hz]
      rfl
    · rw [List.getElem?_eq_getElem hlt, hld]

theorem setPipe_addPipe (w : World) (p q : Pipe) : (w.addPipe p).setPipe w.pipes.length q = w.addPipe q := by
  unfold World.addPipe World.setPipe
  simp

/-- One command on the heap is the command on the world. -/
theorem HeapRep.step {h : Heap} {w : World} (r : HeapRep h w) (c : Cmd) : HeapRep (h.step c) (w.step c) := by
  cases c with
  | newPipe => exact r.alloc _
  | addOp i op ck =>
    simp only [Heap.step, World.step]
    rw [r.read]
    cases hi : w.pipes[i]? with
    | none => exact r
    | some p => exact r.write i _
  | add i f name kw ck =>
    simp only [Heap.step, World.step]
    rw [r.read]
    cases hi : w.pipes[i]? with
    | none => exact r
    | some p => exact r.write i _
  | iadd i j =>
    simp only [Heap.step, World.step, Heap.iadd]
    rw [r.read, r.read]
    cases hi : w.pipes[i]? with
    | none => exact r
    | some p =>
      cases hj : w.pipes[j]? with
      | none => exact r
      | some q => exact r.write i _
  | concat i j =>
    simp only [Heap.step, World.step]
    rw [r.read, r.read]
    cases hi : w.pipes[i]? with
    | none => exact r
    | some p =>
      cases hj : w.pipes[j]? with
      | none => exact r
      | some q =>
        dsimp only
        have hcopy : h.copy i = h.alloc p := by
          unfold Heap.copy
          rw [r.read, hi]
        have ra := r.alloc p
        have hri : (h.alloc p).read h.pipes.length = some p := by
          rw [ra.read, r.len]
          simp [World.addPipe]
        have hrj : (h.alloc p).read j = some q := by
          rw [ra.read]
          show (w.pipes ++ [p])[j]? = _
          rw [List.getElem?_append_left (List.getElem?_eq_some_iff.mp hj).1]
          exact hj
        have hia : (h.copy i).iadd h.pipes.length j =
            ((h.alloc p).write h.pipes.length (p.iadd q).1, (p.iadd q).2) := by
          unfold Heap.iadd
          rw [hcopy, hri, hrj]
        rw [hia]
        unfold Pipe.concat
        obtain ⟨r', o, he⟩ : ∃ r' o, p.iadd q = (r', o) := ⟨_, _, rfl⟩
        rw [he]
        cases o with
        | ok u =>
          dsimp only
          have := ra.write h.pipes.length r'
          rw [r.len, setPipe_addPipe] at this
          rw [r.len]
          exact this
        | error e => exact r.forget p r'
  | copy i =>
    simp only [Heap.step, World.step, Heap.copy]
    rw [r.read]
    cases hi : w.pipes[i]? with
    | none => exact r
    | some p => exact r.alloc _
  | slice i a b c =>
    simp only [Heap.step, World.step]
    rw [r.read]
    cases hi : w.pipes[i]? with
    | none => exact r
    | some p =>
      dsimp only
      cases p.getSlice a b c with
      | error e => exact r
      | ok q => exact r.alloc q
  | deserialize f text =>
    simp only [Heap.step, World.step]
    cases Pipe.deserialize f text with
    | error e => exact r
    | ok q => exact r.alloc q
  | transformSequence i s =>
    simp only [Heap.step, World.step]
    rw [r.read]
    cases hi : w.pipes[i]? with
    | none => exact r
    | some p =>
      dsimp only
      cases p.transformSequence s with
      | error e => exact r
      | ok x => exact r.record i p hi _
  | transform i d =>
    simp only [Heap.step, World.step]
    rw [r.read]
    cases hi : w.pipes[i]? with
    | none => exact r
    | some p =>
      dsimp only
      cases p.transform d with
      | error e => exact r
      | ok x => exact r.record i p hi _

theorem HeapRep.run {h : Heap} {w : World} (r : HeapRep h w) (cmds : List Cmd) : HeapRep (h.run cmds) (w.run cmds) := by
  induction cmds generalizing h w with
  | nil => exact r
  | cons c cs ih => exact ih (r.step c)

theorem HeapRep.get {h : Heap} {w : World} (r : HeapRep h w) (k : Nat) (name : Str) : h.get k name = w.get k name := by
  unfold Heap.get World.get
  cases hk : h.inters[k]? with
  | none =>
    have : w.inters.length ≤ k := by rw [← r.ilen]; exact List.getElem?_eq_none_iff.mp hk
    rw [List.getElem?_eq_none this]
    rfl
  | some x =>
    obtain ⟨d, coll⟩ := x
    obtain ⟨i, l, h1, h2⟩ := r.inters k d coll hk
    obtain ⟨p, g1, _, g3⟩ := r.pipes i l d h2
    rw [h1]
    dsimp only
    rw [g1]
    simp [g3]

end Uttut
