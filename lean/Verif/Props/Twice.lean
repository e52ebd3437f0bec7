import Verif.Spec.Twice
import Verif.Props.Regained

/-! C104: doing a step twice. -/

namespace Uttut

open Spec StopwordsToWhitespace

theorem run_one_error {x : Op} {xs : List Op} {s : Seq} {e : Exc} (h : x.transform s = .error e) :
    Pipe.transformSequence ⟨x :: xs, []⟩ s = .error e :=
  (C58_error _ _ _).mpr ⟨[], x, xs, [], rfl, .nil _, h⟩

theorem repeats_error {op : Op} {s : Seq} {e : Exc} (h : op.transform s = .error e) : Repeats op s := by
  unfold Repeats
  rw [run_one_error h, run_one_error h]
  exact .error e

/-- If a second call changes nothing. -/
theorem repeats_idle {op : Op} {s t : Seq} {a b : Aligner} (h1 : op.transform s = .ok (t, a)) (h2 : op.transform t = .ok (t, b))
    (h3 : a.outputLength = t.length) (h4 : b.outputLength = t.length) (h5 : PassThrough b t.length) : Repeats op s := by
  unfold Repeats
  rw [run_two h1 h2, run_one h1]
  refine .ok _ _ _ _ _ (fun ls => ?_) fun ys => ?_
  · show (a.transform ls >>= fun m => b.transform m >>= fun m => .ok m) = (a.transform ls >>= fun m => .ok m)
    cases e : a.transform ls with
    | error x => rfl
    | ok m =>
      show (b.transform m >>= fun m => .ok m) = _
      rw [(h5 m (by rw [(C15_transform_length a ls m e).2, h3])).1]
  · show (b.inverseTransform ys >>= fun m => a.inverseTransform m >>= fun m => .ok m) = (a.inverseTransform ys >>= fun m => .ok m)
    by_cases hl : ys.length = t.length
    · rw [(h5 ys hl).2]
      rfl
    · rw [C15_inverse_wrong_length b ys (by rw [h4]; exact hl), C15_inverse_wrong_length a ys (by rw [h3]; exact hl)]
      rfl

/-- The output of the second call. -/
theorem repeats_output {op : Op} {s t : Seq} {a : Aligner} (h1 : op.transform s = .ok (t, a)) (h : Repeats op s) :
    ∃ b, op.transform t = .ok (t, b) := by
  unfold Repeats at h
  rw [run_one h1] at h
  cases h2 : op.transform t with
  | error e =>
    have : Pipe.transformSequence ⟨[op, op], []⟩ s = .error e :=
      (C58_error _ _ _).mpr ⟨[op], op, [], [(t, a)], rfl, .cons h1 (.nil _), h2⟩
    rw [this] at h
    cases h
  | ok r =>
    obtain ⟨u, b⟩ := r
    rw [run_two h1 h2] at h
    cases h
    exact ⟨b, rfl⟩

theorem repeats_made {env : Env} (he : env.Sane) {op : Op} (hop : IsBuiltin env op) {s t : Seq} {a b : Aligner}
    (h1 : op.transform s = .ok (t, a)) (h2 : op.transform t = .ok (t, b)) (h5 : PassThrough b t.length) : Repeats op s := by
  obtain ⟨c, hc, args, kwargs, hk, hop⟩ := hop
  exact repeats_idle h1 h2 (builtin_kept env he c hc args kwargs hk op hop s t a (transform_run h1)).output
    (builtin_kept env he c hc args kwargs hk op hop t t b (transform_run h2)).output h5

/-- For operators on texts. -/
theorem repeats_text {env : Env} (he : env.Sane) {op : Op} (hop : IsBuiltin env op) {f : Str → Res (Str × Aligner)}
    {name : String} (ho : op = ⟨Builtin.simple name .str .str (strOp f), [], strOp f⟩)
    (h : ∀ s, ∃ t a b, f s = .ok (t, a) ∧ f t = .ok (t, b) ∧ PassThrough b t.length) (s : Seq) : Repeats op s := by
  subst ho
  cases s with
  | list l => exact repeats_error (e := .typeError) rfl
  | str s =>
    obtain ⟨t, a, b, h1, h2, h3⟩ := h s
    exact repeats_made he hop (strOp_transform h1) (strOp_transform h2) h3

theorem mapLabels_idle {rec : Str → Bool} {F : Str → List Int → List Int} {rs : List Str} (h : ∀ r ∈ rs, rec r = false)
    (ls : List Int) (hl : ls.length = rs.flatten.length) : mapLabels rec F rs (splitLike rs ls) = ls := by
  unfold mapLabels
  induction rs generalizing ls with
  | nil => exact (List.length_eq_zero_iff.mp hl).symm
  | cons r rs ih =>
    rw [List.flatten_cons, List.length_append] at hl
    rw [splitLike, List.zip_cons_cons, List.flatMap_cons, h r (List.mem_cons_self ..),
      ih (fun r hr => h r (List.mem_cons_of_mem _ hr)) _ (by rw [List.length_drop]; omega)]
    exact List.take_append_drop ..

/-- Segments that are replaced by texts with less of something cannot leave the text as it is. -/
theorem none_replaced {rec : Str → Bool} {new : Str → Str} (p : Char → Bool) (segs : List Str)
    (h : ∀ w ∈ segs, rec w = true → (new w).countP p < w.countP p)
    (e : (segs.map fun w => if rec w then new w else w).flatten = segs.flatten) : ∀ w ∈ segs, rec w = false := by
  have hle : ∀ segs : List Str, (∀ w ∈ segs, rec w = true → (new w).countP p < w.countP p) →
      ((segs.map fun w => if rec w then new w else w).flatten).countP p ≤ (segs.flatten).countP p := by
    intro segs h
    induction segs with
    | nil => exact Nat.le_refl _
    | cons w segs ih =>
      have := ih fun w hw => h w (List.mem_cons_of_mem _ hw)
      rw [List.map_cons, List.flatten_cons, List.flatten_cons, List.countP_append, List.countP_append]
      by_cases hr : rec w = true
      · rw [if_pos hr]
        have := h w (List.mem_cons_self ..) hr
        omega
      · rw [if_neg hr]
        omega
  have key : ((segs.map fun w => if rec w then new w else w).flatten).countP p = (segs.flatten).countP p := by rw [e]
  clear e
  induction segs with
  | nil => intro w hw; cases hw
  | cons w segs ih =>
    have h2 : ∀ w ∈ segs, rec w = true → (new w).countP p < w.countP p := fun w hw => h w (List.mem_cons_of_mem _ hw)
    have h1 := hle segs h2
    rw [List.map_cons, List.flatten_cons, List.flatten_cons, List.countP_append, List.countP_append] at key
    by_cases hr : rec w = true
    · rw [if_pos hr] at key
      have := h w (List.mem_cons_self ..) hr
      omega
    · rw [if_neg hr] at key
      intro v hv
      rcases List.mem_cons.mp hv with rfl | hv
      · simpa using hr
      · exact ih h2 (by omega) v hv

theorem number_twice {u : Unicode} {q : Str → Bool} {token : Str} {F : List Int → List Int} {f : Str → Res (Str × Aligner)}
    (h : ∀ s, NumberOp u q token F f s) (ht : Uniform (numeric u) false token) (s : Str) :
    ∃ t a b, f s = .ok (t, a) ∧ f t = .ok (t, b) ∧ PassThrough b t.length := by
  obtain ⟨a, h1, _⟩ := (h s).run
  obtain ⟨b, g1, g2, g3, g4, _⟩ := (h (mapRuns (numeric u) (fun r => if q r then token else r) s)).run
  have e := mapRuns_token_idem (numeric u) q token ht s
  generalize mapRuns (numeric u) (fun r => if q r then token else r) s = t at h1 g1 g2 g3 g4 e
  rw [e] at g1 g2 g4
  have hfl : (runs (numeric u) t).flatten = t := (number_segLaw h t).1
  have hnone : ∀ r ∈ runs (numeric u) t, (isRunOf (numeric u) r && q r) = false := by
    refine none_replaced (rec := fun r => isRunOf (numeric u) r && q r) (new := fun _ => token) (numeric u) _ (fun w hw hr => ?_) ?_
    · rw [Bool.and_eq_true] at hr
      obtain ⟨w1, w2⟩ := run_mem hw hr.1
      have e1 : token.countP (numeric u) = 0 := List.countP_eq_zero.mpr fun c hc => by rw [ht c hc]; simp
      rw [e1]
      obtain ⟨c, w', rfl⟩ := List.exists_cons_of_ne_nil w1
      exact List.countP_pos_iff.mpr ⟨c, by simp, w2 c (by simp)⟩
    · rw [hfl]
      conv => rhs; rw [← e]
      obtain ⟨_, c, hc, _⟩ := number_segLaw h t
      obtain ⟨d, hd⟩ := (h t).out
      obtain ⟨e1, _⟩ := det (f := f) hc hd
      exact e1
  refine ⟨t, a, b, h1, g1, fun ls hl => ⟨?_, ?_⟩⟩
  · rw [g3 ls hl, mapLabels_idle hnone ls (by rw [hfl]; exact hl)]
  · rw [g4 ls hl]
    have em : ((runs (numeric u) t).map fun r => if isRunOf (numeric u) r && q r then token else r) = runs (numeric u) t := by
      conv => rhs; rw [← List.map_id (runs (numeric u) t)]
      refine List.map_congr_left fun r hr => ?_
      rw [hnone r hr]
      rfl
    rw [em, mapLabels_idle hnone ls (by rw [hfl]; exact hl)]

theorem stopwords_twice (σ : SetOrder) (s : Str) :
    ∃ t a b, StopwordsToWhitespace.transform σ s = .ok (t, a) ∧ StopwordsToWhitespace.transform σ t = .ok (t, b) ∧
      PassThrough b t.length := by
  obtain ⟨segs, hs, _⟩ := C23_segments s
  obtain ⟨a, h1, _⟩ := C23_stopwords σ s segs hs
  have hno := C23_no_stopword_left σ s _ (by rw [h1]; rfl)
  dsimp only at hno
  generalize (segs.flatMap fun w => if w ∈ stopwords then [' '] else w) = t at h1 hno
  obtain ⟨segs', hs', _⟩ := C23_segments t
  have hfl : segs'.flatten = t := segmented_flatten hs'
  have hnone : ∀ w ∈ segs', w ∉ stopwords := fun w hw hm => hno w hm (by
    rw [← hfl]
    obtain ⟨x, y, e⟩ := List.append_of_mem hw
    rw [e, List.flatten_append, List.flatten_cons]
    exact ⟨x.flatten, y.flatten, by simp⟩)
  have em : (segs'.map fun w => if w ∈ stopwords then [' '] else w) = segs' := by
    conv => rhs; rw [← List.map_id segs']
    refine List.map_congr_left fun r hr => ?_
    rw [if_neg (hnone r hr)]
    rfl
  obtain ⟨b, g1, _, g3, g4⟩ := C23_stopwords σ t segs' hs'
  rw [List.flatMap_def, em, hfl] at g1 g4
  have hd : ∀ w ∈ segs', decide (w ∈ stopwords) = false := fun w hw => by simpa using hnone w hw
  refine ⟨t, a, b, h1, g1, fun ls hl => ⟨?_, ?_⟩⟩
  · rw [g3 ls hl, mapLabels_idle hd ls (by rw [hfl]; exact hl)]
  · rw [g4 ls hl, mapLabels_idle hd ls (by rw [hfl]; exact hl)]

theorem pad_twice {σ : SetOrder} {n : Int} {pad : Tok} {s t : List Tok} {a : Aligner} (h : Pad.transform σ n pad s = .ok (t, a)) :
    ∃ b, Pad.transform σ n pad t = .ok (t, b) ∧ PassThrough b t.length := by
  have hpos : 0 ≤ n := by
    rcases Int.lt_or_le n 0 with hn | hn
    · rw [C30_negative _ n pad s hn] at h
      cases h
    · exact hn
  obtain ⟨k, rfl⟩ := Int.eq_ofNat_of_zero_le hpos
  have hlen : s.length = k ∨ s.length < 2 ^ 32 := by
    rcases Nat.lt_or_ge s.length (2 ^ 32) with hlt | hge
    · exact Or.inr hlt
    · refine Or.inl (Classical.byContradiction fun hne => ?_)
      exact C30_too_long σ k pad s (by omega) hge _ h
  obtain ⟨a', h1, _⟩ := C30_pad σ k pad s hlen
  obtain ⟨e, _⟩ := det (f := Pad.transform σ k pad) h h1
  have hk : t.length = k := by
    rw [e]
    simp
    omega
  obtain ⟨b, g1, _, g2, g3⟩ := C30_pad σ k pad t (Or.inl hk)
  rw [hk, Nat.sub_self, List.replicate_zero, List.append_nil, List.take_of_length_le (by omega)] at g1
  refine ⟨b, g1, fun ls hl => ⟨?_, ?_⟩⟩
  · rw [g2 ls hl, hk, Nat.sub_self, List.replicate_zero, List.append_nil, List.take_of_length_le (by omega)]
  · rw [g3 ls (by omega), hk, Nat.sub_self, List.replicate_zero, List.append_nil, List.take_of_length_le (by omega)]

theorem list_call {op : Op} {f : List Tok → Res (List Tok × Aligner)} {l out : List Tok} {a : Aligner}
    (hi : op.cls.inputType = .list) (ho : op.cls.outputType = .list) (hr : op.run = lstOp f) (h : f l = .ok (out, a)) :
    op.transform (.list l) = .ok (.list out, a) := by
  unfold Op.transform
  rw [hi, ho, hr, if_neg (by exact fun h => h rfl)]
  show ((f l >>= fun r => .ok (Seq.list r.1, r.2)) >>= _) = _
  rw [h]
  rfl

theorem list_call_inv {op : Op} {f : List Tok → Res (List Tok × Aligner)} {s t : Seq} {a : Aligner}
    (hr : op.run = lstOp f) (h : op.transform s = .ok (t, a)) :
    ∃ l out, s = .list l ∧ t = .list out ∧ f l = .ok (out, a) := by
  have h := transform_run h
  rw [hr] at h
  cases s with
  | str s => cases h
  | list l =>
    obtain ⟨⟨out, a'⟩, k1, k2⟩ := bind_eq_ok h
    injection k2 with k2
    injection k2 with k2 k3
    subst k2; subst k3
    exact ⟨l, out, rfl, rfl, k1⟩

theorem punctuation_twice {σ : SetOrder} {u : Unicode} {s out : Str} {a : Aligner} (hu : u.isCatP ' ' = false)
    (h : PunctuationExceptEndpointToWhitespace.transform σ u s = .ok (out, a)) :
    ∃ b, PunctuationExceptEndpointToWhitespace.transform σ u s = .ok (out, a) ∧
      PunctuationExceptEndpointToWhitespace.transform σ u out = .ok (out, b) ∧ PassThrough b out.length := by
  obtain ⟨b, g1⟩ := C26_idempotent σ σ u s out a hu h
  obtain ⟨b', g2, _, g3⟩ := C26_transform σ u out
  have hb := (det (f := PunctuationExceptEndpointToWhitespace.transform σ u) g1 g2).2
  subst hb
  refine ⟨b, h, g1, fun ls hl => ?_⟩
  obtain ⟨k1, k2⟩ := g3 ls hl
  have hno := C26_no_punctuation σ u s out a hu h
  have e : ((out.zip ls).map fun p => if (p.1 ∈ asciiPunctuation ∨ u.isCatP p.1 = true) ∧ p.1 ≠ '.' then 0 else p.2) = ls := by
    rw [List.map_congr_left (g := Prod.snd)]
    · rw [List.map_snd_zip (by omega)]
    · rintro ⟨c, x⟩ hx
      dsimp only
      rw [if_neg]
      rintro ⟨hp, hne⟩
      exact hne (hno c (List.of_mem_zip hx).1 ((C17_punctuation u c).mpr hp))
  rw [k1, k2, e]
  exact ⟨rfl, rfl⟩

/-- C104: doing one of these steps twice is doing it once. -/
theorem C104_steady (env : Env) (he : env.Sane) (hd : AsciiDigits env.u) (op : Op) (hu : env.u.isCatP ' ' = false)
    (hop : OneOf env steadyNames op) (s : Seq) : Repeats op s := by
  obtain ⟨⟨name, hn, h⟩, hb⟩ := oneOf_made hop
  have h76 := C76_twice env op
  unfold steadyNames at hn
  simp only [List.mem_cons, List.not_mem_nil, or_false] at hn
  rcases hn with rfl | rfl | rfl | rfl | rfl | rfl | rfl | rfl | rfl | rfl | rfl
  · exact h76 (Or.inl h) s
  · exact h76 (Or.inr (Or.inl h)) s
  · exact h76 (Or.inr (Or.inr h)) s
  · refine repeats_text he hb (made_simple rfl h) (fun s => ?_) s
    obtain ⟨a, h1, _⟩ := C26_transform env.σ env.u s
    exact ⟨_, a, punctuation_twice hu h1⟩
  · exact repeats_text he hb (made_simple rfl h) (number_twice (C18_C19_int_token env.σ env.u) (token_off env.u hd _ (by decide))) s
  · exact repeats_text he hb (made_simple rfl h)
      (number_twice (C18_C19_float_token env.σ env.u he.dot) (token_off env.u hd _ (by decide))) s
  · exact repeats_text he hb (made_simple rfl h)
      (number_twice (C18_C19_int_token_with_space env.σ env.u) (token_off env.u hd _ (by decide))) s
  · exact repeats_text he hb (made_simple rfl h)
      (number_twice (C18_C19_float_token_with_space env.σ env.u he.dot) (token_off env.u hd _ (by decide))) s
  · exact repeats_text he hb (made_simple rfl h)
      (number_twice (C18_C19_num_token_with_space env.σ env.u) (token_off env.u hd _ (by decide))) s
  · exact repeats_text he hb (made_simple rfl h) (stopwords_twice env.σ) s
  · cases hr : op.transform s with
    | error e => exact repeats_error hr
    | ok r =>
      obtain ⟨t, a⟩ := r
      obtain ⟨hc, vals, h⟩ := made_any (c := Builtin.pad env) rfl h
      unfold Builtin.pad at h
      dsimp only at h
      unfold Builtin.padInit at h
      split at h
      · obtain ⟨tok, _, h⟩ := bind_eq_ok h
        injection h with h
        have hr2 := transform_run hr
        rw [← h] at hr2
        cases s with
        | str s => cases hr2
        | list s =>
          obtain ⟨⟨out, a'⟩, k1, k2⟩ := bind_eq_ok hr2
          injection k2 with k2
          injection k2 with k2 k3
          subst k2; subst k3
          dsimp only at k1
          obtain ⟨n, n1, n2⟩ := bind_eq_ok k1
          obtain ⟨b, b1, b2⟩ := pad_twice n2
          refine repeats_made he hb hr (t := .list out) (b := b) ?_ b2
          refine list_call (by rw [hc]; rfl) (by rw [hc]; rfl) h.symm ?_
          show (_ >>= fun n => Pad.transform env.σ n tok out) = _
          rw [n1]
          exact b1
      · cases h

theorem text_call {op : Op} {f : Str → Res (Str × Aligner)} {l out : Str} {a : Aligner}
    (hi : op.cls.inputType = .str) (ho : op.cls.outputType = .str) (hr : op.run = strOp f) (h : f l = .ok (out, a)) :
    op.transform (.str l) = .ok (.str out, a) := by
  unfold Op.transform
  rw [hi, ho, hr, if_neg (by exact fun h => h rfl)]
  show ((f l >>= fun r => .ok (Seq.str r.1, r.2)) >>= _) = _
  rw [h]
  rfl

theorem create_builtin {env : Env} {name : String} {args : List PyVal} {op : Op} (h : create env name args [] = .ok op) :
    IsBuiltin env op :=
  (oneOf_made ⟨name, List.mem_singleton.mpr rfl, args, [], h, List.nodup_nil⟩).2

theorem seq_str {x y : Str} {a b : Aligner} (h : (.ok (Seq.str x, a) : Res _) = .ok (.str y, b)) : x = y := by
  cases h; rfl

theorem seq_list {x y : List Tok} {a b : Aligner} (h : (.ok (Seq.list x, a) : Res _) = .ok (.list y, b)) : x = y := by
  cases h; rfl

/-! ### Blanks around characters and words -/

theorem around_length (valid : Char → Bool) (s : Str) :
    s.length ≤ (s.flatMap (fun c => if valid c then [' ', c, ' '] else [c])).length ∧
    ((s.flatMap (fun c => if valid c then [' ', c, ' '] else [c])).length = s.length → ∀ c ∈ s, valid c = false) := by
  induction s with
  | nil => exact ⟨Nat.le_refl _, fun _ c hc => absurd hc List.not_mem_nil⟩
  | cons c s ih =>
    rw [List.flatMap_cons, List.length_append, List.length_cons]
    cases hv : valid c with
    | true =>
      rw [if_pos rfl]
      simp only [List.length_cons, List.length_nil]
      exact ⟨by omega, fun h => by omega⟩
    | false =>
      rw [if_neg (by simp)]
      simp only [List.length_cons, List.length_nil]
      refine ⟨by omega, fun h d hd => ?_⟩
      rcases List.mem_cons.mp hd with rfl | hd
      · exact hv
      · exact ih.2 (by omega) d hd

theorem around_none {valid : Char → Bool} {s : Str} (h : ∀ c ∈ s, valid c = false) :
    s.flatMap (fun c => if valid c then [' ', c, ' '] else [c]) = s := by
  induction s with
  | nil => rfl
  | cons c s ih =>
    rw [List.flatMap_cons, h c (List.mem_cons_self ..), ih fun d hd => h d (List.mem_cons_of_mem _ hd)]
    rfl

theorem around_labels {valid : Char → Bool} {s : Str} (h : ∀ c ∈ s, valid c = false) (ls : List Int) (hl : ls.length = s.length) :
    ((s.zip ls).flatMap fun p => if valid p.1 then [0, p.2, 0] else [p.2]) = ls := by
  induction s generalizing ls with
  | nil => exact (List.length_eq_zero_iff.mp hl).symm
  | cons c s ih =>
    cases ls with
    | nil => cases hl
    | cons x ls =>
      rw [List.zip_cons_cons, List.flatMap_cons, h c (List.mem_cons_self ..),
        ih (fun d hd => h d (List.mem_cons_of_mem _ hd)) ls (Nat.succ.inj hl)]
      rfl

theorem around_mem {valid : Char → Bool} {s : Str} {c : Char} (h : c ∈ s) :
    c ∈ s.flatMap (fun c => if valid c then [' ', c, ' '] else [c]) :=
  List.mem_flatMap.mpr ⟨c, h, by cases valid c <;> simp⟩

theorem around_twice {env : Env} (he : env.Sane) {op : Op} (hop : IsBuiltin env op) {σ : SetOrder} {valid : Char → Bool}
    {name : String} (ho : op = ⟨Builtin.simple name .str .str (strOp (AddWhitespaceAroundChar.transform σ valid)), [],
      strOp (AddWhitespaceAroundChar.transform σ valid)⟩) (s : Str) :
    Repeats op (.str s) ↔ ∀ c ∈ s, valid c = false := by
  subst ho
  constructor
  · intro h
    obtain ⟨a, h1, _⟩ := C17_around σ valid s
    obtain ⟨b, h2⟩ := repeats_output (strOp_transform h1) h
    obtain ⟨b', h3, _⟩ := C17_around σ valid (s.flatMap (fun c => if valid c then [' ', c, ' '] else [c]))
    rw [strOp_transform h3] at h2
    have hno := (around_length valid _).2 (congrArg List.length (seq_str h2))
    exact fun c hc => hno c (around_mem hc)
  · intro h
    obtain ⟨a, h1, _, h2, _, h3⟩ := C17_around σ valid s
    rw [around_none h] at h1
    refine repeats_made he hop (strOp_transform h1) (strOp_transform h1) fun ls hl => ?_
    have e := h2 ls hl
    rw [around_labels h ls hl] at e
    exact ⟨e, h3 _ _ e⟩

/-- C104: blanks around ideographs or punctuation marks are added again by a second call. -/
theorem C104_around (env : Env) (he : env.Sane) (op : Op) (s : Str) :
    (OneOf env ["AddWhitespaceAroundCJK"] op →
      (Repeats op (.str s) ↔ ∀ c ∈ s, ¬ ∃ b ∈ cjkBlocks, b.1 ≤ c.toNat ∧ c.toNat ≤ b.2)) ∧
    (OneOf env ["AddWhitespaceAroundPunctuation"] op →
      (Repeats op (.str s) ↔ ∀ c ∈ s, ¬ (c ∈ asciiPunctuation ∨ env.u.isCatP c = true))) := by
  constructor
  · intro h
    obtain ⟨⟨name, hn, h⟩, hb⟩ := oneOf_made h
    cases List.mem_singleton.mp hn
    rw [around_twice he hb (made_simple rfl h) s]
    refine forall₂_congr fun c _ => ?_
    rw [← C17_cjk, Bool.not_eq_true]
  · intro h
    obtain ⟨⟨name, hn, h⟩, hb⟩ := oneOf_made h
    cases List.mem_singleton.mp hn
    rw [around_twice he hb (made_simple rfl h) s]
    refine forall₂_congr fun c _ => ?_
    rw [← C17_punctuation, Bool.not_eq_true]

theorem spaced_length (ws : List Str) (segs : List Str) :
    segs.flatten.length ≤ (segs.flatMap (spaced ws)).length ∧
    ((segs.flatMap (spaced ws)).length = segs.flatten.length → ∀ r ∈ segs, spacedSeg ws r = false) := by
  induction segs with
  | nil => exact ⟨Nat.le_refl _, fun _ c hc => absurd hc List.not_mem_nil⟩
  | cons r segs ih =>
    rw [List.flatMap_cons, List.length_append, List.flatten_cons, List.length_append]
    unfold spaced at *
    cases hv : spacedSeg ws r with
    | true =>
      rw [if_pos rfl]
      simp only [List.length_append, List.length_cons, List.length_nil]
      exact ⟨by omega, fun h => by omega⟩
    | false =>
      rw [if_neg (by simp)]
      refine ⟨by omega, fun h d hd => ?_⟩
      rcases List.mem_cons.mp hd with rfl | hd
      · exact hv
      · exact ih.2 (by omega) d hd

/-- No segment is spaced where there is no word and no ideograph. -/
theorem wordSegs_plain {ws : List Str} {sh : Bool} {s : Str} {segs : List Str} (h : WordSegs ws sh s segs) :
    (∀ r ∈ segs, spacedSeg ws r = false) ↔ (∀ w ∈ ws, w ≠ [] → ¬ w <:+: s) ∧
      ∀ c ∈ s, ¬ ∃ b ∈ cjkBlocks, b.1 ≤ c.toNat ∧ c.toNat ≤ b.2 := by
  induction h with
  | nil =>
    refine ⟨fun _ => ⟨fun w _ hw h => hw (List.infix_nil.mp h), fun c hc => absurd hc List.not_mem_nil⟩,
      fun _ r hr => absurd hr List.not_mem_nil⟩
  | char c rest segs hb _ ih =>
    have hc : [c] ∉ ws := fun hc => hb [c] hc (by simp) ⟨rest, rfl⟩
    have e : spacedSeg ws [c] = decide (∃ b ∈ cjkBlocks, b.1 ≤ c.toNat ∧ c.toNat ≤ b.2) := by
      unfold spacedSeg
      rw [decide_eq_false hc]
      rfl
    rw [List.forall_mem_cons, List.forall_mem_cons, ih, e, decide_eq_false_iff_not]
    constructor
    · rintro ⟨h1, h2, h3⟩
      refine ⟨fun w hw hn h => ?_, h1, h3⟩
      rcases List.infix_cons_iff.mp h with h | h
      · exact hb w hw hn h
      · exact h2 w hw hn h
    · rintro ⟨h1, h2, h3⟩
      exact ⟨h2, fun w hw hn h => h1 w hw hn (List.infix_cons h), h3⟩
  | word w rest segs hb _ ih =>
    obtain ⟨hw, hn, _⟩ := hb
    constructor
    · intro h
      have := h w (List.mem_cons_self ..)
      unfold spacedSeg at this
      rw [decide_eq_true hw] at this
      cases this
    · intro h
      exact absurd ⟨[], rest, rfl⟩ (h.1 w hw hn)

theorem spaced_flatten {ws segs : List Str} (h : ∀ r ∈ segs, spacedSeg ws r = false) : segs.flatMap (spaced ws) = segs.flatten := by
  rw [List.flatMap_def, List.map_congr_left (g := id), List.map_id]
  intro r hr
  unfold spaced
  rw [h r hr]
  rfl

theorem spaced_infix {ws segs : List Str} {r : Str} (h : r ∈ segs) : r <:+: segs.flatMap (spaced ws) := by
  obtain ⟨xs, ys, rfl⟩ := List.append_of_mem h
  rw [List.flatMap_append, List.flatMap_cons]
  refine List.IsInfix.trans (l₂ := spaced ws r) ?_ ⟨_, _, List.append_assoc ..⟩
  unfold spaced
  split
  · exact ⟨[' '], [' '], rfl⟩
  · exact List.infix_refl _

/-- C104: blanks around words and ideographs are added again by a second call. -/
theorem C104_words (env : Env) (he : env.Sane) (op : Op) (ws : List Str) (sh : Bool)
    (h : create env "AddWhitespaceAroundWordnZhChar" [.list (ws.map PyVal.str), .bool sh] [] = .ok op) (s : Str) :
    Repeats op (.str s) ↔ (∀ w ∈ ws, w ≠ [] → ¬ w <:+: s) ∧
      ∀ c ∈ s, ¬ ∃ b ∈ cjkBlocks, b.1 ≤ c.toNat ∧ c.toNat ≤ b.2 := by
  have hop := create_builtin h
  obtain ⟨hc, hi⟩ := create_init (c := Builtin.aroundWord env) (vals := [.list (ws.map PyVal.str), .bool sh]) rfl h rfl
  have hi : (Builtin.userWords (.list (ws.map PyVal.str)) >>= fun t =>
    (.ok (strOp (AddWhitespaceAroundWordnZhChar.transform env.σ t sh)) : Res _)) = .ok op.run := hi
  rw [userWords_strings] at hi
  obtain ⟨t, ht, hi⟩ := bind_eq_ok hi
  have hr := (Except.ok.inj hi).symm
  have call : ∀ {x out a}, AddWhitespaceAroundWordnZhChar.transform env.σ t sh x = .ok (out, a) →
      op.transform (.str x) = .ok (.str out, a) := text_call (by rw [hc]; rfl) (by rw [hc]; rfl) hr
  obtain ⟨a, segs, h1, h2, h3, _, h4, h5, h6⟩ := C38_spaces env.σ ws t ht sh s
  rw [← wordSegs_plain h1]
  constructor
  · intro h r hr
    obtain ⟨b, g⟩ := repeats_output (call h3) h
    obtain ⟨b', segs', k1, k2, k3, _⟩ := C38_spaces env.σ ws t ht sh (segs.flatMap (spaced ws))
    rw [call k3] at g
    have e := seq_str g
    have hno := (wordSegs_plain k1).mp ((spaced_length ws segs').2 (by rw [e, k2]))
    have hin := spaced_infix (ws := ws) hr
    unfold spacedSeg
    rw [Bool.or_eq_false_iff]
    constructor
    · rw [decide_eq_false_iff_not]
      intro hw
      exact hno.1 r hw (wordSegs_nonempty h1 r hr) hin
    · split
      · rw [decide_eq_false_iff_not]
        exact hno.2 _ (hin.subset (List.mem_singleton.mpr rfl))
      · rfl
  · intro h
    rw [spaced_flatten h, h2] at h3
    refine repeats_made he hop (call h3) (call h3) fun ls hl => ?_
    have e := h4 ls hl
    rw [mapLabels_idle h ls (by rw [h2]; exact hl)] at e
    exact ⟨e, h6 _ _ e⟩

/-! ### Accents -/

/-- C104: removing accents. -/
theorem C104_accent (env : Env) (he : env.Sane) (op : Op) (hop : OneOf env ["StripAccentToken"] op) (s : Str)
    (f : Str → Str) (hf : f = fun s => (env.u.nfd s).filter fun c => !env.u.isMn c) :
    Repeats op (.str s) ↔ (f s).length ≠ s.length ∨ f (f s) = f s := by
  obtain ⟨⟨name, hn, h⟩, hb⟩ := oneOf_made hop
  cases List.mem_singleton.mp hn
  have ho := made_simple rfl h
  have e1 : ∀ s, (f s).length = s.length → ∃ a, op.transform (.str s) = .ok (.str (f s), a) ∧ PassThrough a s.length := by
    intro s hs
    subst hf
    obtain ⟨a, h1, _, h2⟩ := C27_transform env.σ env.u s hs
    rw [ho]
    exact ⟨a, strOp_transform h1, h2⟩
  have e2 : ∀ s, (f s).length ≠ s.length → op.transform (.str s) = .error .assertionError := by
    intro s hs
    subst hf
    have := C27_length_change env.σ env.u s hs
    rw [ho]
    show ((StripAccentToken.transform env.σ env.u s >>= fun r => .ok (Seq.str r.1, r.2)) >>= _) = _
    rw [this]
    rfl
  by_cases hs : (f s).length = s.length
  · obtain ⟨a, h1, _⟩ := e1 s hs
    constructor
    · intro h
      obtain ⟨b, h2⟩ := repeats_output h1 h
      by_cases ht : (f (f s)).length = (f s).length
      · obtain ⟨b', h3, _⟩ := e1 _ ht
        rw [h3] at h2
        exact Or.inr (seq_str h2)
      · rw [e2 _ ht] at h2
        cases h2
    · intro h
      rcases h with h | h
      · exact absurd hs h
      · obtain ⟨b, h2, h3⟩ := e1 (f s) (by rw [h])
        rw [h] at h2
        exact repeats_made he hb h1 h2 h3
  · exact ⟨fun _ => Or.inl hs, fun _ => repeats_error (e2 s hs)⟩

/-! ### Lists of tokens -/

theorem tokens_cases (l : List Tok) : (∃ ws : List Str, l = ws.map Tok.str) ∨ ∃ i, Tok.int i ∈ l := by
  induction l with
  | nil => exact Or.inl ⟨[], rfl⟩
  | cons x l ih =>
    cases x with
    | int i => exact Or.inr ⟨i, List.mem_cons_self ..⟩
    | str w =>
      rcases ih with ⟨ws, rfl⟩ | ⟨i, hi⟩
      · exact Or.inl ⟨w :: ws, rfl⟩
      · exact Or.inr ⟨i, List.mem_cons_of_mem _ hi⟩

theorem pureNum_twice {σ : SetOrder} {u : Unicode} {token : Tok} {l out : List Tok} {a : Aligner}
    (h : PureNum2Token.transform σ u token l = .ok (out, a)) (hno : ∀ i, Tok.int i ∉ out) :
    ∃ b, PureNum2Token.transform σ u token out = .ok (out, b) ∧ PassThrough b out.length := by
  rcases tokens_cases l with ⟨ws, rfl⟩ | ⟨i, hi⟩
  · rcases tokens_cases out with ⟨vs, rfl⟩ | ⟨i, hi⟩
    · obtain ⟨a', h1, _⟩ := C35_transform σ u token ws
      obtain ⟨b, h2, h3, _⟩ := C35_transform σ u token vs
      have e := (det (f := PureNum2Token.transform σ u token) h h1).1
      refine ⟨b, ?_, by rw [List.length_map]; exact h3⟩
      rw [h2]
      congr 2
      refine List.map_congr_left fun v hv => ?_
      split
      · rename_i hd
        have hm : Tok.str v ∈ vs.map Tok.str := List.mem_map_of_mem hv
        rw [e] at hm
        obtain ⟨w, _, hw⟩ := List.mem_map.mp hm
        split at hw
        · exact hw
        · rename_i hd'
          cases hw
          exact absurd hd hd'
      · rfl
    · exact absurd hi (hno i)
  · rw [C35_non_string σ u token l i hi] at h
    cases h

/-- C104: replacing numbers, unless the replacement is an integer that the second call cannot read. -/
theorem C104_pure_num (env : Env) (he : env.Sane) (op : Op) (hop : OneOf env ["PureNum2Token"] op) (l : List Tok) :
    Repeats op (.list l) ↔ ¬ ∃ out a i, op.transform (.list l) = .ok (.list out, a) ∧ Tok.int i ∈ out := by
  obtain ⟨⟨name, hn, h⟩, hb⟩ := oneOf_made hop
  cases List.mem_singleton.mp hn
  obtain ⟨hc, vals, h⟩ := made_any (c := Builtin.pureNum env) rfl h
  have hr : ∃ token, op.run = lstOp (PureNum2Token.transform env.σ env.u token) := by
    unfold Builtin.pureNum Builtin.pureNumInit at h
    dsimp only at h
    split at h
    · exact ⟨_, (Except.ok.inj h).symm⟩
    · obtain ⟨tok, _, h⟩ := bind_eq_ok h
      exact ⟨tok, (Except.ok.inj h).symm⟩
    · cases h
  obtain ⟨token, hr⟩ := hr
  have call : ∀ {x out a}, PureNum2Token.transform env.σ env.u token x = .ok (out, a) →
      op.transform (.list x) = .ok (.list out, a) := list_call (by rw [hc]; rfl) (by rw [hc]; rfl) hr
  constructor
  · rintro h ⟨out, a, i, h1, hi⟩
    obtain ⟨b, h2⟩ := repeats_output h1 h
    obtain ⟨_, _, e1, e2, h3⟩ := list_call_inv hr h2
    cases e1; cases e2
    rw [C35_non_string _ _ _ _ i hi] at h3
    cases h3
  · intro h
    cases h1 : op.transform (.list l) with
    | error e => exact repeats_error h1
    | ok r =>
      obtain ⟨t, a⟩ := r
      obtain ⟨_, out, e1, e2, h2⟩ := list_call_inv hr h1
      cases e1; subst e2
      obtain ⟨b, h3, h4⟩ := pureNum_twice h2 fun i hi => h ⟨out, a, i, h1, hi⟩
      exact repeats_made he hb h1 (call h3) h4

/-- C104: a second call adds the tokens at the ends again. -/
theorem C104_ends (env : Env) (op : Op) (hop : OneOf env ["AddSosEos", "AddEndToken"] op) (l : List Tok)
    (hl : l.length + 2 < 2 ^ 32) : ¬ Repeats op (.list l) := by
  obtain ⟨⟨name, hn, h⟩, _⟩ := oneOf_made hop
  intro hrep
  simp only [List.mem_cons, List.not_mem_nil, or_false] at hn
  rcases hn with rfl | rfl
  · obtain ⟨hc, vals, hi⟩ := made_any (c := Builtin.sosEos env) rfl h
    unfold Builtin.sosEos Builtin.sosEosInit at hi
    dsimp only at hi
    split at hi
    · obtain ⟨s, _, hi⟩ := bind_eq_ok hi
      obtain ⟨e, _, hi⟩ := bind_eq_ok hi
      have hr := (Except.ok.inj hi).symm
      have call : ∀ {x out a}, AddSosEos.transform env.σ s e x = .ok (out, a) →
        op.transform (.list x) = .ok (.list out, a) := list_call (by rw [hc]; rfl) (by rw [hc]; rfl) hr
      have key : ∀ out a, AddSosEos.transform env.σ s e l = .ok (out, a) → out ≠ [] → out.length < 2 ^ 32 → False := by
        intro out a h1 hne hlen
        obtain ⟨b, h2⟩ := repeats_output (call h1) hrep
        obtain ⟨a', h3, _⟩ := C28_add_sos_eos env.σ s e out hne hlen
        rw [call h3] at h2
        have := congrArg List.length (seq_list h2)
        simp only [List.cons_append, List.length_cons, List.length_append, List.length_nil] at this
        omega
      by_cases hne : l = []
      · subst hne
        by_cases hse : s = e
        · subst hse
          obtain ⟨a, h1, _⟩ := C29_equal_tokens env.σ s
          exact key _ _ h1 (by simp) (by simp)
        · obtain ⟨out, a, h1, h2, _⟩ := C29_empty_list env.σ s e hse
          refine key _ _ h1 ?_ ?_ <;> rcases h2 with rfl | rfl <;> simp
      · obtain ⟨a, h1, _⟩ := C28_add_sos_eos env.σ s e l hne (by omega)
        refine key _ _ h1 (by simp) ?_
        simp only [List.cons_append, List.length_cons, List.length_append, List.length_nil]
        omega
    · cases hi
  · obtain ⟨hc, vals, hi⟩ := made_any (c := Builtin.endTok env) rfl h
    unfold Builtin.endTok Builtin.endTokInit at hi
    dsimp only at hi
    split at hi
    · cases hi
    · obtain ⟨s, _, hi⟩ := bind_eq_ok hi
      obtain ⟨e, _, hi⟩ := bind_eq_ok hi
      have hr := (Except.ok.inj hi).symm
      have call : ∀ {x out a}, AddEndToken.transform env.σ (.str e) x = .ok (out, a) →
        op.transform (.list x) = .ok (.list out, a) := list_call (by rw [hc]; rfl) (by rw [hc]; rfl) hr
      obtain ⟨a1, g1, _⟩ := C28_add_end_token env.σ (.str e) l (by omega)
      obtain ⟨a2, g2, _⟩ := C28_add_end_token env.σ (.str e) (l ++ [.str e]) (by rw [List.length_append, List.length_singleton]; omega)
      obtain ⟨b, h2⟩ := repeats_output (call g1) hrep
      rw [call g2] at h2
      have := congrArg List.length (seq_list h2)
      simp at this
    · cases hi

/-- C104: replacing the matches of a pattern, where the result has none. -/
theorem C104_replace (env : Env) (he : env.Sane) (op : Op) (p v : Str) (m : Matcher) (hm : env.compile p = some m)
    (h : create env "ReplaceAwithB" [.str p, .str v] [] = .ok op) (s t : Str) (a : Aligner)
    (hc : op.transform (.str s) = .ok (.str t, a)) (hn : Scan m t 0 []) : Repeats op (.str s) := by
  have hb := create_builtin h
  obtain ⟨hcl, hi⟩ := create_init (c := Builtin.replace env) (vals := [.str p, .str v]) rfl h rfl
  have hi : Builtin.replaceInit env [.str p, .str v] = .ok op.run := hi
  simp only [Builtin.replaceInit, PyVal.asStr, hm, Except.bind_ok] at hi
  obtain ⟨b, h1, _, _, h2, h3⟩ := C25_replace env.σ m v t (he.sound p m hm t) [] hn
  have e : replaceMatches t v 0 [] = t := rfl
  rw [e] at h1 h2 h3
  refine repeats_made he hb hc (text_call (by rw [hcl]; rfl) (by rw [hcl]; rfl) (Except.ok.inj hi).symm h1) fun ls hl => ?_
  exact ⟨(h2 ls hl).1, (h3 (Or.inr (by unfold DistinctMatches DistinctDeletions; simp))).2 ls hl⟩

/-! ### Word pieces -/

theorem flatMap_fixed {α : Type} {f : α → List α} {l : List α} (hne : ∀ x ∈ l, f x ≠ []) (h : l.flatMap f = l) :
    ∀ x ∈ l, f x = [x] := by
  have hlen : ∀ l : List α, (∀ x ∈ l, f x ≠ []) → l.length ≤ (l.flatMap f).length := by
    intro l
    induction l with
    | nil => intro _; exact Nat.le_refl _
    | cons x l ih =>
      intro hne
      have h1 := List.length_pos_iff.mpr (hne x (List.mem_cons_self ..))
      have h2 := ih fun y hy => hne y (List.mem_cons_of_mem _ hy)
      rw [List.flatMap_cons, List.length_append, List.length_cons]
      omega
  induction l with
  | nil => exact fun x hx => absurd hx List.not_mem_nil
  | cons y l ih =>
    have h1 := List.length_pos_iff.mpr (hne y (List.mem_cons_self ..))
    have h2 := hlen l fun y hy => hne y (List.mem_cons_of_mem _ hy)
    rw [List.flatMap_cons] at h
    have h3 := congrArg List.length h
    rw [List.length_append, List.length_cons] at h3
    have h4 : (f y).length = 1 := by omega
    obtain ⟨z, hz⟩ := List.length_eq_one_iff.mp h4
    rw [hz, List.singleton_append] at h
    injection h with h5 h6
    subst h5
    intro x hx
    rcases List.mem_cons.mp hx with rfl | hx
    · exact hz
    · exact ih (fun y hy => hne y (List.mem_cons_of_mem _ hy)) h6 x hx

theorem piecesOf_span {vocab : List Str} {unk : Str} {n : Int} {w : Str} {ps : List Str} (h : PiecesOf vocab unk n w ps) :
    SpanSubwords.spanSubwords (fun w => vocab.contains w) unk n w = .ok ps := by
  rcases h with ⟨g1, rs, g2, g3⟩ | ⟨g1, g2⟩
  · rw [g3]; exact C33_segmentation _ _ _ _ _ g1 g2
  · rw [g2]; exact C33_unknown _ _ _ _ g1

theorem piecesOf_exists (vocab : List Str) (unk : Str) (n : Int) (w : Str) : ∃ ps, PiecesOf vocab unk n w ps := by
  by_cases h : (w.length : Int) ≤ n ∧ ∃ rs, Greedy (fun w => vocab.contains w) true w rs
  · obtain ⟨h1, rs, h2⟩ := h
    exact ⟨_, Or.inl ⟨h1, rs, h2, rfl⟩⟩
  · refine ⟨_, Or.inr ⟨?_, rfl⟩⟩
    by_cases h1 : n < w.length
    · exact Or.inl h1
    · exact Or.inr fun h2 => h ⟨by omega, h2⟩

theorem piecesOf_nonempty {vocab : List Str} {unk : Str} {n : Int} {w : Str} {ps : List Str} (hu : unk ≠ [])
    (h : PiecesOf vocab unk n w ps) : (∀ p ∈ ps, p ≠ []) ∧ (w ≠ [] → ps ≠ []) := by
  rcases h with ⟨_, rs, g2, rfl⟩ | ⟨_, rfl⟩
  · cases rs with
    | nil => exact ⟨fun p hp => absurd hp List.not_mem_nil, fun hw => absurd g2 hw⟩
    | cons r rs =>
      refine ⟨fun p hp => ?_, fun _ => by unfold wordPieces; simp⟩
      rcases List.mem_cons.mp hp with rfl | hp
      · exact g2.1
      · obtain ⟨r', _, rfl⟩ := List.mem_map.mp hp
        unfold wordPiece
        simp
  · exact ⟨fun p hp => by rw [List.mem_singleton.mp hp]; exact hu, fun _ => by simp⟩

/-- C104: word pieces, when each of them is kept by a second call. -/
theorem C104_subwords (env : Env) (he : env.Sane) (op : Op) (d : List (Str × PyVal)) (unk : Str) (n : Int) (hu : unk ≠ [])
    (h : create env "SpanSubwords" [.dict d, .str unk, .int n] [] = .ok op) (l : List Str) (subs : Str → List Str)
    (hs : ∀ w ∈ l, PiecesOf (d.map Prod.fst) unk n w (subs w)) :
    Repeats op (.list (l.map Tok.str)) ↔ ∀ w ∈ l, ∀ p ∈ subs w, PiecesOf (d.map Prod.fst) unk n p [p] := by
  have hb := create_builtin h
  obtain ⟨hc, hi⟩ := create_init (c := Builtin.spanSubwords env) (vals := [.dict d, .str unk, .int n]) rfl h rfl
  have hr : op.run = lstOp (SpanSubwords.transform env.σ (fun w => (d.map Prod.fst).contains w) unk n) :=
    (Except.ok.inj hi).symm
  have call : ∀ {x out a}, SpanSubwords.transform env.σ (fun w => (d.map Prod.fst).contains w) unk n x = .ok (out, a) →
      op.transform (.list x) = .ok (.list out, a) := list_call (by rw [hc]; rfl) (by rw [hc]; rfl) hr
  obtain ⟨a, h1, _⟩ := C34_transform env.σ (fun w => (d.map Prod.fst).contains w) unk n l subs fun w hw => piecesOf_span (hs w hw)
  have e0 : (l.flatMap fun s => (subs s).map Tok.str) = (l.flatMap subs).map Tok.str := by rw [List.map_flatMap]
  rw [e0] at h1
  have hne : ∀ p ∈ l.flatMap subs, p ≠ [] := by
    intro p hp
    obtain ⟨w, hw, hp⟩ := List.mem_flatMap.mp hp
    exact (piecesOf_nonempty hu (hs w hw)).1 p hp
  have again : ∀ f : Str → List Str, (∀ p ∈ l.flatMap subs, PiecesOf (d.map Prod.fst) unk n p (f p)) → ∃ b,
      op.transform (.list ((l.flatMap subs).map Tok.str)) = .ok (.list (((l.flatMap subs).flatMap f).map Tok.str), b) ∧
      ((∀ p ∈ l.flatMap subs, f p = [p]) → PassThrough b (l.flatMap subs).length) := by
    intro f hf
    obtain ⟨b, k1, k2, _, _, k3⟩ := C34_transform env.σ (fun w => (d.map Prod.fst).contains w) unk n (l.flatMap subs) f
      fun p hp => piecesOf_span (hf p hp)
    rw [← List.map_flatMap] at k1
    refine ⟨b, call k1, fun hfix ls hl => ?_⟩
    have e := k2 ls hl
    have e1 : (((l.flatMap subs).zip ls).flatMap fun p => List.replicate (f p.1).length p.2) = ls := by
      have : ∀ p ∈ (l.flatMap subs).zip ls, List.replicate (f p.1).length p.2 = [p.2] := by
        rintro ⟨p, x⟩ hp
        rw [hfix p (List.of_mem_zip hp).1]
        rfl
      rw [List.flatMap_congr this, ← List.map_eq_flatMap]
      exact List.map_snd_zip (by omega)
    rw [e1] at e
    exact ⟨e, k3 hne _ _ e⟩
  constructor
  · intro h w hw p hp
    obtain ⟨f, hf⟩ : ∃ f : Str → List Str, ∀ w, PiecesOf (d.map Prod.fst) unk n w (f w) :=
      ⟨fun w => (piecesOf_exists _ _ _ w).choose, fun w => (piecesOf_exists _ _ _ w).choose_spec⟩
    obtain ⟨b, h2⟩ := repeats_output (call h1) h
    obtain ⟨b', h3, _⟩ := again f fun p _ => hf p
    rw [h3] at h2
    have e := List.map_injective_iff.mpr (fun _ _ h => Tok.str.inj h) (seq_list h2)
    have hm : p ∈ l.flatMap subs := List.mem_flatMap.mpr ⟨w, hw, hp⟩
    have := flatMap_fixed (fun x hx => (piecesOf_nonempty hu (hf x)).2 (hne x hx)) e p hm
    rw [← this]
    exact hf p
  · intro h
    have hm : ∀ p ∈ l.flatMap subs, PiecesOf (d.map Prod.fst) unk n p [p] := by
      intro p hp
      obtain ⟨w, hw, hp⟩ := List.mem_flatMap.mp hp
      exact h w hw p hp
    obtain ⟨b, h2, h3⟩ := again (fun p => [p]) hm
    have e : (l.flatMap subs).flatMap (fun p => [p]) = l.flatMap subs := by
      rw [← List.map_eq_flatMap]; exact List.map_id' _
    rw [e] at h2
    refine repeats_made he hb (call h1) h2 ?_
    show PassThrough b ((l.flatMap subs).map Tok.str).length
    rw [List.length_map]
    exact h3 fun _ _ => rfl

theorem piecesOf_entry {vocab : List Str} {unk : Str} {n : Int} {p : Str} (hp : p ∈ vocab) (hne : p ≠ [])
    (hl : (p.length : Int) ≤ n) : PiecesOf vocab unk n p [p] := by
  refine Or.inl ⟨hl, [p], ⟨hne, ?_, fun r' hr hlt => ?_, [], (List.append_nil p).symm, rfl⟩, rfl⟩
  · exact List.contains_iff_mem.mpr hp
  · have := hr.length_le
    omega

theorem greedy_vocab {vocab : Str → Bool} {first : Bool} {w : Str} {rs : List Str} (h : Greedy vocab first w rs) :
    (∀ r ∈ rs.head?, vocab (wordPiece first r) = true) ∧ ∀ r ∈ rs.tail, vocab (wordPiece false r) = true := by
  induction rs generalizing first w with
  | nil => exact ⟨fun r hr => (by cases hr), fun r hr => (by cases hr)⟩
  | cons r rs ih =>
    obtain ⟨_, h1, _, rest, _, h2⟩ := h
    refine ⟨fun x hx => ?_, fun x hx => ?_⟩
    · cases hx; exact h1
    · obtain ⟨h3, h4⟩ := ih h2
      cases rs with
      | nil => cases hx
      | cons y rs =>
        rcases List.mem_cons.mp hx with rfl | hx
        · exact h3 _ rfl
        · exact h4 _ hx

/-- C104: word pieces of a vocabulary that has the unknown token and no entry longer than the limit. -/
theorem C104_subwords_closed (env : Env) (he : env.Sane) (op : Op) (d : List (Str × PyVal)) (unk : Str) (n : Int) (hu : unk ≠ [])
    (h : create env "SpanSubwords" [.dict d, .str unk, .int n] [] = .ok op) (hk : unk ∈ d.map Prod.fst)
    (hl : ∀ v ∈ d.map Prod.fst, (v.length : Int) ≤ n) (l : List Tok) : Repeats op (.list l) := by
  rcases tokens_cases l with ⟨ws, rfl⟩ | ⟨i, hi⟩
  · have hex : ∀ w, ∃ ps, PiecesOf (d.map Prod.fst) unk n w ps := piecesOf_exists _ _ _
    rw [C104_subwords env he op d unk n hu h ws (fun w => (hex w).choose) fun w _ => (hex w).choose_spec]
    intro w _ p hp
    have hs := (hex w).choose_spec
    have hv : p ∈ d.map Prod.fst := by
      rcases hs with ⟨_, rs, g, e⟩ | ⟨_, e⟩
      · rw [e] at hp
        obtain ⟨g1, g2⟩ := greedy_vocab g
        cases rs with
        | nil => cases hp
        | cons r rs =>
          rcases List.mem_cons.mp hp with rfl | hp
          · exact List.contains_iff_mem.mp (g1 _ rfl)
          · obtain ⟨r', hr', rfl⟩ := List.mem_map.mp hp
            exact List.contains_iff_mem.mp (g2 r' hr')
      · rw [e] at hp
        rw [List.mem_singleton.mp hp]
        exact hk
    exact piecesOf_entry hv ((piecesOf_nonempty hu hs).1 p hp) (hl p hv)
  · obtain ⟨hc, hi'⟩ := create_init (c := Builtin.spanSubwords env) (vals := [.dict d, .str unk, .int n]) rfl h rfl
    have hr : op.run = lstOp (SpanSubwords.transform env.σ (fun w => (d.map Prod.fst).contains w) unk n) :=
      (Except.ok.inj hi').symm
    cases h1 : op.transform (.list l) with
    | error e => exact repeats_error h1
    | ok r =>
      obtain ⟨t, a⟩ := r
      obtain ⟨_, out, e1, _, h2⟩ := list_call_inv hr h1
      cases e1
      rw [spanSubwords_non_string _ _ _ _ _ i hi] at h2
      cases h2

/-! ### Indices -/

theorem map_int_inj {xs ys : List Int} (h : xs.map Tok.int = ys.map Tok.int) : xs = ys :=
  List.map_injective_iff.mpr (fun _ _ h => Tok.int.inj h) h

/-- C104: indices are no tokens of the mapping: a second call makes each of them the index of the unknown token. -/
theorem C104_index (env : Env) (he : env.Sane) (op : Op) (d : List (Str × Int)) (unk : Str) (u : Int)
    (hk : (d.map Prod.fst).Nodup) (hu : (unk, u) ∈ d)
    (h : create env "Token2Index" [.dict (d.map fun kv => (kv.1, .int kv.2)), .str unk] [] = .ok op) (l out : List Tok)
    (a : Aligner) (h1 : op.transform (.list l) = .ok (.list out, a)) :
    Gives op (.list out) (.list (List.replicate out.length (.int u))) ∧
    (Repeats op (.list l) ↔ ∀ x ∈ out, x = .int u) := by
  have hb := create_builtin h
  obtain ⟨hc, hi⟩ := create_init (c := Builtin.token2index env)
    (vals := [.dict (d.map fun kv => (kv.1, .int kv.2)), .str unk]) rfl h rfl
  have hi : ((PyVal.dict (d.map fun kv => (kv.1, .int kv.2))).asIndex >>= fun d => Token2Index.init d unk >>= fun _ =>
    (.ok (lstOp (Token2Index.transform env.σ d unk)) : Res _)) = .ok op.run := hi
  rw [asIndex_ok, Except.bind_ok] at hi
  obtain ⟨_, hini, hi⟩ := bind_eq_ok hi
  have hr := (Except.ok.inj hi).symm
  have call : ∀ {x out a}, Token2Index.transform env.σ d unk x = .ok (out, a) →
      op.transform (.list x) = .ok (.list out, a) := list_call (by rw [hc]; rfl) (by rw [hc]; rfl) hr
  obtain ⟨ns, a', k1, k2, _⟩ := C31_transform env.σ d unk hk hini l
  have e : out = ns.map Tok.int := by
    have := h1
    rw [call k1] at this
    exact (seq_list this).symm
  subst e
  obtain ⟨ms, b, g1, g2, g3, _, g4, _⟩ := C31_transform env.σ d unk hk hini (ns.map Tok.int)
  have em : ms = List.replicate (ns.map Tok.int).length u := by
    refine List.eq_replicate_iff.mpr ⟨g2, fun m hm => ?_⟩
    obtain ⟨i, hi, rfl⟩ := List.mem_iff_getElem.mp hm
    have hp : ((ns.map Tok.int)[i]'(g2 ▸ hi), ms[i]) ∈ (ns.map Tok.int).zip ms :=
      List.mem_of_getElem? (i := i) (List.getElem?_zip_eq_some.mpr ⟨by simp, by simp⟩)
    refine ((g4 _ hp).2 u ?_).symm
    rw [List.getElem_map]
    exact hu
  have g1 := call g1
  rw [em, List.map_replicate] at g1
  refine ⟨⟨b, g1⟩, fun h x hx => ?_, fun h => ?_⟩
  · obtain ⟨b', h2⟩ := repeats_output h1 h
    rw [g1] at h2
    rw [← seq_list h2] at hx
    exact List.eq_of_mem_replicate hx
  · have e : ns.map Tok.int = List.replicate (ns.map Tok.int).length (.int u) := List.eq_replicate_iff.mpr ⟨rfl, h⟩
    rw [← e] at g1
    exact repeats_made he hb h1 g1 g3

/-- C104: hashing a second time: indices cannot be hashed. -/
theorem C104_index_hash (env : Env) (he : env.Sane) (op : Op) (d : List (Str × Int)) (hk : (d.map Prod.fst).Nodup)
    (h : create env "Token2IndexwithHash" [.dict (d.map fun kv => (kv.1, .int kv.2))] [] = .ok op) (l out : List Tok)
    (a : Aligner) (h1 : op.transform (.list l) = .ok (.list out, a)) :
    (l ≠ [] → op.transform (.list out) = .error .typeError) ∧ (Repeats op (.list l) ↔ l = []) := by
  have hb := create_builtin h
  obtain ⟨hc, hi⟩ := create_init (c := Builtin.token2indexHash env)
    (vals := [.dict (d.map fun kv => (kv.1, .int kv.2))]) rfl h rfl
  have hi : ((PyVal.dict (d.map fun kv => (kv.1, .int kv.2))).asIndex >>= fun d => Token2IndexwithHash.init d >>= fun _ =>
    (.ok (lstOp (Token2IndexwithHash.transform env.σ d)) : Res _)) = .ok op.run := hi
  rw [asIndex_ok, Except.bind_ok] at hi
  obtain ⟨_, hini, hi⟩ := bind_eq_ok hi
  have hr := (Except.ok.inj hi).symm
  obtain ⟨_, _, e1, e2, h2⟩ := list_call_inv hr h1
  cases e1; cases e2
  have key : l ≠ [] → op.transform (.list out) = .error .typeError := by
    intro hne
    have hi : ∃ i, Tok.int i ∈ out := by
      rcases tokens_cases l with ⟨ws, rfl⟩ | ⟨i, hi⟩
      · obtain ⟨idx, a', k1, _⟩ := C32_transform env.σ d hk hini ws
        rw [k1] at h2
        have e := congrArg Prod.fst (Except.ok.inj h2)
        cases ws with
        | nil => exact absurd rfl hne
        | cons w ws => exact ⟨idx w, by
          have e : (w :: ws).map (fun s => Tok.int (idx s)) = out := e
          rw [← e]
          exact List.mem_cons_self ..⟩
      · rw [C32_non_string _ _ _ i hi] at h2
        cases h2
    obtain ⟨i, hi⟩ := hi
    unfold Op.transform
    rw [hc, hr, if_neg (by exact fun h => h rfl)]
    show ((Token2IndexwithHash.transform env.σ d out >>= fun r => .ok (Seq.list r.1, r.2)) >>= _) = _
    rw [C32_non_string _ _ _ i hi]
    rfl
  refine ⟨key, fun h => ?_, fun h => ?_⟩
  · by_contra hne
    obtain ⟨b, h3⟩ := repeats_output h1 h
    rw [key hne] at h3
    cases h3
  · subst h
    obtain ⟨idx, a', k1, _, _, _, k2, _⟩ := C32_transform env.σ d hk hini []
    obtain ⟨e1, e2⟩ := det (f := Token2IndexwithHash.transform env.σ d) h2 k1
    have e1 : out = [] := e1
    subst e1; subst e2
    exact repeats_made he hb h1 h1 k2

/-! ### Operators between texts and lists -/

/-- C104: an operator from texts to lists (or from lists to texts) cannot be called on its own output. -/
theorem C104_types (op : Op) (ht : op.cls.inputType ≠ op.cls.outputType) (s : Seq) :
    Repeats op s ↔ ∃ e, op.transform s = .error e := by
  constructor
  · intro h
    cases h1 : op.transform s with
    | error e => exact ⟨e, rfl⟩
    | ok r =>
      obtain ⟨t, a⟩ := r
      obtain ⟨b, h2⟩ := repeats_output h1 h
      have hi : ¬ t.type ≠ op.cls.inputType := fun hne => by
        unfold Op.transform at h2
        rw [if_pos hne] at h2
        cases h2
      have ho : ¬ t.type ≠ op.cls.outputType := fun hne => by
        have h1' := h1
        unfold Op.transform at h1'
        split at h1'
        · cases h1'
        · obtain ⟨⟨out, a'⟩, _, h3⟩ := bind_eq_ok h1'
          dsimp only at h3
          split at h3
          · cases h3
          · rename_i hok
            cases h3
            exact hok hne
      exact absurd ((not_not.mp hi).symm.trans (not_not.mp ho)) ht
  · rintro ⟨e, h⟩
    exact repeats_error h

/-! ### Pipes -/

theorem move_past {x : Op} {xs : List Op} (h : ∀ y ∈ xs, Interchangeable [x, y] [y, x]) : Interchangeable (xs ++ [x]) (x :: xs) := by
  induction xs with
  | nil => exact C76_equivalence.1 _
  | cons y xs ih =>
    have h1 := C76_replace _ _ [y] [] (ih fun z hz => h z (List.mem_cons_of_mem _ hz))
    have h2 := C76_replace _ _ [] xs (C76_equivalence.2.1 _ _ (h y (List.mem_cons_self ..)))
    rw [List.append_nil, List.append_nil] at h1
    exact C76_equivalence.2.2 _ _ _ h1 h2

/-- C104: steps that can be repeated and swapped. -/
theorem C104_pipe (ops : List Op) (h1 : ∀ x ∈ ops, ∀ s, Repeats x s) (h2 : ∀ x ∈ ops, ∀ y ∈ ops, Interchangeable [x, y] [y, x]) :
    Interchangeable (ops ++ ops) ops := by
  induction ops with
  | nil => exact C76_equivalence.1 _
  | cons x xs ih =>
    have k1 := C76_replace _ _ [x] xs (move_past fun y hy => h2 x (List.mem_cons_self ..) y (List.mem_cons_of_mem _ hy))
    have k2 := C76_replace _ _ [] (xs ++ xs) (show Interchangeable [x, x] [x] from h1 x (List.mem_cons_self ..))
    have k3 := C76_replace _ _ [x] [] (ih (fun y hy => h1 y (List.mem_cons_of_mem _ hy))
      fun y hy z hz => h2 y (List.mem_cons_of_mem _ hy) z (List.mem_cons_of_mem _ hz))
    rw [List.append_nil, List.append_nil] at k3
    have e1 : [x] ++ (xs ++ [x]) ++ xs = (x :: xs) ++ (x :: xs) := by simp
    have e2 : [x] ++ (x :: xs) ++ xs = [] ++ [x, x] ++ (xs ++ xs) := by simp
    have e3 : [] ++ [x] ++ (xs ++ xs) = [x] ++ (xs ++ xs) := by simp
    rw [e1, e2] at k1
    rw [e3] at k2
    exact C76_equivalence.2.2 _ _ _ k1 (C76_equivalence.2.2 _ _ _ k2 k3)

/-- C104: a pipe of small letters, merged and stripped whitespace, in any order and number. -/
theorem C104_clean (env : Env) (hcat : ∀ c ∈ capitals ++ smalls, env.u.isCatP c = false) (ops : List Op)
    (h : ∀ x ∈ ops, OneOf env ["Lowercase", "MergeWhiteSpaceCharacters", "StripWhiteSpaceCharacters"] x) :
    Interchangeable (ops ++ ops) ops := by
  have hm : ∀ x ∈ ops, Made env "Lowercase" x ∨ Made env "MergeWhiteSpaceCharacters" x ∨ Made env "StripWhiteSpaceCharacters" x := by
    intro x hx
    obtain ⟨⟨name, hn, h⟩, _⟩ := oneOf_made (h x hx)
    simp only [List.mem_cons, List.not_mem_nil, or_false] at hn
    rcases hn with rfl | rfl | rfl
    · exact Or.inl h
    · exact Or.inr (Or.inl h)
    · exact Or.inr (Or.inr h)
  refine C104_pipe ops (fun x hx => C76_twice env x (hm x hx)) fun x hx y hy => ?_
  have sym := fun h => C76_equivalence.2.1 [y, x] [x, y] h
  rcases hm x hx with a | a | a
  · rcases hm y hy with b | b | b
    · rw [made_simple rfl a, made_simple rfl b]; exact C76_equivalence.1 _
    · exact C76_lowercase env hcat x y a (Or.inl b)
    · exact C76_lowercase env hcat x y a (Or.inr (Or.inl b))
  · rcases hm y hy with b | b | b
    · exact sym (C76_lowercase env hcat y x b (Or.inl a))
    · rw [made_simple rfl a, made_simple rfl b]; exact C76_equivalence.1 _
    · exact C76_merge_strip env x y a b
  · rcases hm y hy with b | b | b
    · exact sym (C76_lowercase env hcat y x b (Or.inr (Or.inl a)))
    · exact sym (C76_merge_strip env y x b a)
    · rw [made_simple rfl a, made_simple rfl b]; exact C76_equivalence.1 _

/-! ### Concrete cases -/

theorem create_oneOf {env : Env} {name : String} {args : List PyVal} {op : Op} (h : create env name args [] = .ok op) :
    OneOf env [name] op := ⟨name, List.mem_singleton.mpr rfl, args, [], h, List.nodup_nil⟩

/-- `IntToken` and `Pad(3)`. -/
example : ∃ op, create exEnv "IntToken" [] [] = .ok op ∧ Gives op (.str "a 12".toList) (.str "a _int_".toList) ∧
    Repeats op (.str "a 12".toList) := by
  refine ⟨_, rfl, ⟨_, rfl⟩, ?_⟩
  exact C104_steady exEnv exEnv_sane asciiUnicode_digits _ rfl ⟨"IntToken", by decide, [], [], rfl, List.nodup_nil⟩ _

example : ∃ op, create exEnv "Pad" [.int 3] [] = .ok op ∧
    Gives op (.list [.int 5]) (.list [.int 5, .str "<pad>".toList, .str "<pad>".toList]) ∧ Repeats op (.list [.int 5]) := by
  refine ⟨_, rfl, ⟨_, rfl⟩, ?_⟩
  exact C104_steady exEnv exEnv_sane asciiUnicode_digits _ rfl ⟨"Pad", by decide, [.int 3], [], rfl, List.nodup_nil⟩ _

/-- Blanks around the dash: once, and twice. -/
example : ∃ op, create exEnv "AddWhitespaceAroundPunctuation" [] [] = .ok op ∧ ¬ Repeats op (.str "a-b".toList) ∧
    Repeats op (.str "ab".toList) := by
  refine ⟨_, rfl, fun h => ?_, ?_⟩
  · exact ((C104_around exEnv exEnv_sane _ _).2 (create_oneOf (args := []) rfl)).mp h '-' (by decide) (Or.inl (by decide))
  · exact ((C104_around exEnv exEnv_sane _ _).2 (create_oneOf (args := []) rfl)).mpr (by decide)

example : ∃ op, create exEnv "AddWhitespaceAroundCJK" [] [] = .ok op ∧ ¬ Repeats op (.str "a中b".toList) := by
  refine ⟨_, rfl, fun h => ?_⟩
  exact ((C104_around exEnv exEnv_sane _ _).1 (create_oneOf (args := []) rfl)).mp h '中' (by decide) ⟨(0x4E00, 0x9FFF), by decide, by decide⟩

/-- The word "bc" in "abcd". -/
example : ∃ op, create exEnv "AddWhitespaceAroundWordnZhChar" [.list (List.map PyVal.str ["bc".toList]), .bool false] [] = .ok op ∧
    ¬ Repeats op (.str "abcd".toList) ∧ Repeats op (.str "abd".toList) := by
  refine ⟨_, rfl, fun h => ?_, ?_⟩
  · exact ((C104_words exEnv exEnv_sane _ ["bc".toList] false rfl _).mp h).1 "bc".toList (by decide) (by decide)
      ⟨['a'], ['d'], rfl⟩
  · exact (C104_words exEnv exEnv_sane _ ["bc".toList] false rfl _).mpr ⟨by decide, by decide⟩

example : ∃ op, create exEnv "StripAccentToken" [] [] = .ok op ∧ Repeats op (.str "ab".toList) :=
  ⟨_, rfl, (C104_accent exEnv exEnv_sane _ (create_oneOf (args := []) rfl) _ _ rfl).mpr (Or.inr rfl)⟩

/-- `PureNum2Token()` and `PureNum2Token(0)`. -/
example : ∃ op, create exEnv "PureNum2Token" [] [] = .ok op ∧ Repeats op (.list [.str "12".toList, .str "a".toList]) := by
  have e : (create exEnv "PureNum2Token" [] [] >>= fun op => (op.transform (.list [.str "12".toList, .str "a".toList])).map
      Prod.fst) = .ok (.list [.str "_num_".toList, .str "a".toList]) := rfl
  cases hc : create exEnv "PureNum2Token" [] [] with
  | error e => cases hc
  | ok op =>
    rw [hc, Except.bind_ok] at e
    refine ⟨op, rfl, (C104_pure_num exEnv exEnv_sane _ (create_oneOf (args := []) hc) _).mpr ?_⟩
    rintro ⟨out, a, i, h, hi⟩
    rw [h] at e
    cases e
    simp at hi

example : ∃ op, create exEnv "PureNum2Token" [.int 0] [] = .ok op ∧ ¬ Repeats op (.list [.str "12".toList]) := by
  refine ⟨_, rfl, fun h => ?_⟩
  exact (C104_pure_num exEnv exEnv_sane _ (create_oneOf (args := [.int 0]) rfl) _).mp h ⟨[.int 0], _, 0, rfl, by simp⟩

example : ∃ op, create exEnv "AddSosEos" [] [] = .ok op ∧ ¬ Repeats op (.list [.str "a".toList]) :=
  ⟨_, rfl, C104_ends exEnv _ ⟨"AddSosEos", by decide, [], [], rfl, List.nodup_nil⟩ _ (by decide)⟩

/-- `ReplaceAwithB("1", "xyz")`. -/
example : Repeats exOne (.str "a1b1".toList) := by
  obtain ⟨_, a, _, _, _, h1, _⟩ := exTwo_run
  exact C104_replace exEnv exEnv_sane exOne "1".toList "xyz".toList _ rfl rfl _ _ a h1 (.noMatch _ (by decide) rfl)

/-- Word pieces. -/
example : ∃ op, create exEnv "SpanSubwords" [.dict [("un".toList, .int 0), ("##do".toList, .int 1), ("[UNK]".toList, .int 2)],
      .str "[UNK]".toList, .int 200] [] = .ok op ∧
    Gives op (.list [.str "undo".toList]) (.list [.str "un".toList, .str "##do".toList]) ∧
    Repeats op (.list [.str "undo".toList]) := by
  refine ⟨_, rfl, ⟨_, rfl⟩, ?_⟩
  exact C104_subwords_closed exEnv exEnv_sane _ _ _ _ (by decide) rfl (by decide) (by decide) _

/-- The unknown token is no entry of the vocabulary, but can be cut into entries. -/
example : ∃ op, create exEnv "SpanSubwords" [.dict [("<".toList, .int 0), ("##unk>".toList, .int 1)], .str "<unk>".toList,
      .int 200] [] = .ok op ∧ ¬ Repeats op (.list (["x".toList].map Tok.str)) := by
  refine ⟨_, rfl, fun h => ?_⟩
  have hx : PiecesOf ["<".toList, "##unk>".toList] "<unk>".toList 200 "x".toList ["<unk>".toList] := by
    obtain ⟨ps, hp⟩ := piecesOf_exists ["<".toList, "##unk>".toList] "<unk>".toList 200 "x".toList
    have e := piecesOf_span hp
    have e' : SpanSubwords.spanSubwords (fun w => ["<".toList, "##unk>".toList].contains w) "<unk>".toList 200 "x".toList =
      .ok ["<unk>".toList] := by decide
    rw [e'] at e
    cases e
    exact hp
  have := (C104_subwords exEnv exEnv_sane _ [("<".toList, .int 0), ("##unk>".toList, .int 1)] "<unk>".toList 200 (by decide) rfl
    ["x".toList] (fun _ => ["<unk>".toList]) (fun w hw => by rw [List.mem_singleton.mp hw]; exact hx)).mp h "x".toList
    (List.mem_singleton.mpr rfl) "<unk>".toList (List.mem_singleton.mpr rfl)
  have e := piecesOf_span this
  have e' : SpanSubwords.spanSubwords (fun w => ["<".toList, "##unk>".toList].contains w) "<unk>".toList 200 "<unk>".toList =
    .ok ["<".toList, "##unk>".toList] := by decide
  have e : SpanSubwords.spanSubwords (fun w => ["<".toList, "##unk>".toList].contains w) "<unk>".toList 200 "<unk>".toList =
    .ok ["<unk>".toList] := e
  rw [e'] at e
  cases e

/-- Indices of "a" and of an unknown word, and the indices of these. -/
example : ∃ op, create exEnv "Token2Index" [.dict ([("a".toList, 0), ("<unk>".toList, 1)].map fun kv => (kv.1, .int kv.2)),
      .str "<unk>".toList] [] = .ok op ∧
    Gives op (.list [.str "a".toList, .str "x".toList]) (.list [.int 0, .int 1]) ∧
    Gives op (.list [.int 0, .int 1]) (.list [.int 1, .int 1]) ∧ ¬ Repeats op (.list [.str "a".toList, .str "x".toList]) := by
  refine ⟨_, rfl, ⟨_, rfl⟩, ?_⟩
  obtain ⟨h1, h2⟩ := C104_index exEnv exEnv_sane _ [("a".toList, 0), ("<unk>".toList, 1)] "<unk>".toList 1 (by decide) (by decide) rfl
    [.str "a".toList, .str "x".toList] [.int 0, .int 1] _ rfl
  exact ⟨h1, fun h => absurd (h2.mp h (.int 0) (by simp)) (by decide)⟩

example : ∃ op, create exEnv "Token2IndexwithHash" [.dict ([("a".toList, 0)].map fun kv => (kv.1, .int kv.2))] [] = .ok op ∧
    Gives op (.list [.str "a".toList]) (.list [.int 0]) ∧ ¬ Repeats op (.list [.str "a".toList]) := by
  refine ⟨_, rfl, ⟨_, rfl⟩, ?_⟩
  exact fun h => absurd ((C104_index_hash exEnv exEnv_sane _ [("a".toList, 0)] (by decide) rfl [.str "a".toList] _ _ rfl).2.mp h)
    (by decide)

/-- A tokenizer. -/
example : ¬ Repeats exSplit (.str "a b".toList) := by
  obtain ⟨a, h1, _⟩ := exSplit_back
  rw [C104_types exSplit (by decide)]
  rintro ⟨e, h⟩
  rw [h1] at h
  cases h

/-- A clean-up pipe. -/
example : ∃ l m p, create exEnv "Lowercase" [] [] = .ok l ∧ create exEnv "MergeWhiteSpaceCharacters" [] [] = .ok m ∧
    create exEnv "StripWhiteSpaceCharacters" [] [] = .ok p ∧ Interchangeable [p, l, m, p, l, m] [p, l, m] := by
  refine ⟨_, _, _, rfl, rfl, rfl, C104_clean exEnv (by decide) [_, _, _] fun x hx => ?_⟩
  simp only [List.mem_cons, List.not_mem_nil, or_false] at hx
  rcases hx with rfl | rfl | rfl
  · exact ⟨"StripWhiteSpaceCharacters", by decide, [], [], rfl, List.nodup_nil⟩
  · exact ⟨"Lowercase", by decide, [], [], rfl, List.nodup_nil⟩
  · exact ⟨"MergeWhiteSpaceCharacters", by decide, [], [], rfl, List.nodup_nil⟩

end Uttut
