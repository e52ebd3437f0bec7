import Verif.Spec.Framing
import Verif.Props.Parts
import Verif.Props.Frame
import Verif.Props.Interchange
import Verif.Props.Arguments

/-!
C111: the tokens of `Pad`, `AddSosEos` and `AddEndToken` may be added before or after `Token2Index`,
`Token2IndexwithHash` and `PureNum2Token`.
-/

namespace Uttut

open Spec

/-! ### translating -/

theorem tokenwise_mapped (σ : SetOrder) (nv : Tok → Res (Option (List Tok))) (e : Exc)
    (he : ∀ t e', nv t = .error e' → e' = e) (h1 : ∀ t v, nv t = .ok (some v) → v.length = 1) :
    ∃ (good : Tok → Prop) (tr : Tok → Tok),
      (∀ l, (∀ t ∈ l, good t) → (tokenwiseTransform σ nv l fun _ n => Aligner.null l.length n) =
        .ok (l.map tr, Aligner.null l.length l.length)) ∧
      (∀ l, (∃ t ∈ l, ¬ good t) → (tokenwiseTransform σ nv l fun _ n => Aligner.null l.length n) = .error e) := by
  let val : Tok → Option (List Tok) := fun t => match nv t with
    | .ok v => v
    | .error _ => none
  let tr : Tok → Tok := fun t => ((val t).getD [t]).headD t
  refine ⟨fun t => ∃ v, nv t = .ok v, tr, fun l hl => ?_, fun l hl => ?_⟩
  · have hv : ∀ t ∈ l, nv t = .ok (val t) := by
      intro t ht
      obtain ⟨v, h⟩ := hl t ht
      simp only [val, h]
    have hm : (l.flatMap fun x => (val x).getD [x]) = l.map tr := by
      clear hl
      induction l with
      | nil => rfl
      | cons t l ih =>
        rw [List.flatMap_cons, ih fun t ht => hv t (List.mem_cons_of_mem _ ht), List.map_cons]
        have ht := hv t (by simp)
        have : (val t).getD [t] = [tr t] := by
          cases hvt : val t with
          | none => simp [tr, hvt]
          | some v =>
            rw [hvt] at ht
            have hl := h1 t v ht
            obtain ⟨w, rfl⟩ := List.length_eq_one_iff.mp hl
            simp [tr, hvt]
        rw [this]
        rfl
    rw [tokenwiseTransform_congr σ nv val l hv, hm, List.length_map]
  · obtain ⟨t, ht, hg⟩ := hl
    unfold tokenwiseTransform
    cases h : nv t with
    | ok v => exact absurd ⟨v, h⟩ hg
    | error e' =>
      rw [enumAdd_error nv l e ⟨t, ht, by rw [h, he t e' h]⟩ fun t _ e' h => he t e' h]
      rfl

/-- What `T` does to lists of tokens. -/
def Translates (T : Op) (good : Tok → Prop) (tr : Tok → Tok) (e : Exc) : Prop :=
  (∀ l, (∀ t ∈ l, good t) → T.transform (.list l) = .ok (.list (l.map tr), Aligner.null l.length l.length)) ∧
    (∀ l, (∃ t ∈ l, ¬ good t) → T.transform (.list l) = .error e)

theorem lst_transform_error {c : OpClass} {cfg : List (Str × PyVal)} {f : List Tok → Res (List Tok × Aligner)}
    (hi : c.inputType = .list) {l : List Tok} {e : Exc} (h : f l = .error e) :
    Op.transform ⟨c, cfg, lstOp f⟩ (.list l) = .error e := by
  unfold Op.transform
  rw [if_neg (by simp [hi, Seq.type])]
  have : lstOp f (.list l) = .error e := by
    show (f l >>= _) = _
    rw [h]
    rfl
  simp only [this]
  rfl

theorem translates_of {T : Op} {σ : SetOrder} {nv : Tok → Res (Option (List Tok))} (e : Exc)
    (hi : T.cls.inputType = .list) (ho : T.cls.outputType = .list)
    (hr : T.run = lstOp (fun l => tokenwiseTransform σ nv l fun _ n => Aligner.null l.length n))
    (he : ∀ t e', nv t = .error e' → e' = e) (h1 : ∀ t v, nv t = .ok (some v) → v.length = 1) :
    ∃ good tr, Translates T good tr e := by
  obtain ⟨good, tr, h2, h3⟩ := tokenwise_mapped σ nv e he h1
  obtain ⟨c, cfg, run⟩ := T
  dsimp only at hi ho hr
  subst hr
  exact ⟨good, tr, fun l hl => lst_transform hi ho (h2 l hl), fun l hl => lst_transform_error hi (h3 l hl)⟩

theorem translator_step {env : Env} {name : String} {T : Op} (h : Made env name T) (hn : name ∈ translatorNames) :
    ∃ good tr e, Translates T good tr e := by
  simp only [translatorNames, List.mem_cons, List.not_mem_nil, or_false] at hn
  rcases hn with rfl | rfl | rfl
  · obtain ⟨hc, vals, hi⟩ := made_any (c := Builtin.token2index env) rfl h
    unfold Builtin.token2index Builtin.token2indexInit at hi
    dsimp only at hi
    split at hi
    · obtain ⟨d, _, hi⟩ := bind_eq_ok hi
      split at hi
      · obtain ⟨_, _, hi⟩ := bind_eq_ok hi
        obtain ⟨g, tr, h⟩ := translates_of .keyError (by rw [hc]; rfl) (by rw [hc]; rfl) (Except.ok.inj hi).symm
          (fun t e' he => by
            unfold Token2Index.newValue at he
            dsimp only at he
            split at he
            · cases he
            · split at he <;> cases he
              rfl)
          (fun t v hv => by
            unfold Token2Index.newValue at hv
            dsimp only at hv
            split at hv
            · cases hv; rfl
            · split at hv <;> cases hv
              rfl)
        exact ⟨g, tr, _, h⟩
      · obtain ⟨_, _, hi⟩ := bind_eq_ok hi
        split at hi <;> cases hi
    · cases hi
  · obtain ⟨hc, vals, hi⟩ := made_any (c := Builtin.token2indexHash env) rfl h
    unfold Builtin.token2indexHash Builtin.token2indexHashInit at hi
    dsimp only at hi
    split at hi
    · obtain ⟨d, _, hi⟩ := bind_eq_ok hi
      obtain ⟨_, _, hi⟩ := bind_eq_ok hi
      obtain ⟨g, tr, h⟩ := translates_of .typeError (by rw [hc]; rfl) (by rw [hc]; rfl) (Except.ok.inj hi).symm
        (fun t e' he => by
          unfold Token2IndexwithHash.newValue at he
          split at he
          · cases he; rfl
          · split at he <;> cases he)
        (fun t v hv => by
          unfold Token2IndexwithHash.newValue at hv
          split at hv
          · cases hv
          · split at hv <;> cases hv <;> rfl)
      exact ⟨g, tr, _, h⟩
    · cases hi
  · obtain ⟨hc, vals, hi⟩ := made_any (c := Builtin.pureNum env) rfl h
    have key : ∀ tk, T.run = lstOp (PureNum2Token.transform env.σ env.u tk) → ∃ good tr e, Translates T good tr e := by
      intro tk hr
      obtain ⟨g, tr, h⟩ := translates_of .typeError (by rw [hc]; rfl) (by rw [hc]; rfl) hr
        (fun t e' he => by
          unfold PureNum2Token.newValue at he
          split at he <;> cases he
          rfl)
        (fun t v hv => by
          unfold PureNum2Token.newValue at hv
          split at hv
          · cases hv
          · split at hv <;> cases hv
            rfl)
      exact ⟨g, tr, _, h⟩
    unfold Builtin.pureNum Builtin.pureNumInit at hi
    dsimp only at hi
    split at hi
    · exact key _ (Except.ok.inj hi).symm
    · obtain ⟨t, _, hi⟩ := bind_eq_ok hi
      exact key _ (Except.ok.inj hi).symm
    · cases hi

theorem translates_one {T : Op} {good : Tok → Prop} {tr : Tok → Tok} {e : Exc} (h : Translates T good tr e) {p p' : Tok}
    (hp : Gives T (.list [p]) (.list [p'])) : good p ∧ tr p = p' := by
  obtain ⟨a, ha⟩ := hp
  by_cases hg : good p
  · rw [h.1 [p] (by simpa using hg)] at ha
    injection ha with ha
    injection ha with ha
    injection ha with ha
    exact ⟨hg, by simpa using ha⟩
  · rw [h.2 [p] ⟨p, by simp, hg⟩] at ha
    cases ha

/-! ### framing -/

/-- The tokens in the frame. -/
def Spec.Frame.around : Frame → List Tok → List Tok
  | .pad m p, l => l.take m ++ List.replicate (m - l.length) p
  | .ends b e, l => b :: l ++ [e]
  | .last e, l => l ++ [.str e]

/-- The labels of `n` tokens, for the tokens in the frame. -/
def Spec.Frame.labels : Frame → Nat → List Int → List Int
  | .pad m _, n, ls => ls.take m ++ List.replicate (m - n) 0
  | .ends _ _, _, ls => 0 :: ls ++ [0]
  | .last _, _, ls => ls ++ [0]

/-- The labels of the tokens in the frame, for the `n` tokens. -/
def Spec.Frame.unlabels : Frame → Nat → List Int → List Int
  | .pad m _, n, ys => ys.take n ++ List.replicate (n - m) 0
  | .ends _ _, n, ys => (ys.drop 1).take n
  | .last _, n, ys => ys.take n

/-- The answers of an aligner from `n` to `m` labels. -/
structure Answers (a : Aligner) (n m : Nat) (f g : List Int → List Int) : Prop where
  input : a.inputLength = n
  output : a.outputLength = m
  forward : ∀ ls, ls.length = n → a.transform ls = .ok (f ls) ∧ (f ls).length = m
  backward : ∀ ys, ys.length = m → a.inverseTransform ys = .ok (g ys) ∧ (g ys).length = n

theorem answers_of {a : Aligner} {n m : Nat} {f g : List Int → List Int} (h : Aligned a n m anyLabels)
    (hf : ∀ ls, ls.length = n → a.transform ls = .ok (f ls)) (hg : ∀ ys, ys.length = m → a.inverseTransform ys = .ok (g ys)) :
    Answers a n m f g where
  input := h.input
  output := h.output
  forward ls hl := by
    obtain ⟨y, hy, hn⟩ := h.forward ls hl
    have e := hf ls hl
    rw [hy] at e
    injection e with e
    exact ⟨hf ls hl, e ▸ hn⟩
  backward ys hl := by
    obtain ⟨y, hy, hn⟩ := h.backward ys hl trivial
    have e := hg ys hl
    rw [hy] at e
    injection e with e
    exact ⟨hg ys hl, e ▸ hn⟩

theorem frame_step {env : Env} {f : Frame} {F : Op} (h : f.Is env F) (l : List Tok) (hl : f.Fits l.length) :
    ∃ a, F.transform (.list l) = .ok (.list (f.around l), a) ∧
      Answers a l.length (f.size l.length) (f.labels l.length) (f.unlabels l.length) := by
  cases f with
  | pad m p =>
    obtain ⟨args, kwargs, v, w, hb, hv, hw, hc⟩ := h
    obtain ⟨h1, _, _⟩ := create_eq (env := env) (name := "Pad") (c := Builtin.pad env) rfl padParams rfl
      rfl (by decide) args kwargs
    have := h1 _ (lstOp fun l => v.asInt >>= fun n => Pad.transform env.σ n p l) hb (by
      show (w.asTok >>= _) = _
      rw [asTok_of hw]
      rfl)
    rw [hc] at this
    injection this with this
    subst this
    obtain ⟨a, h2, h3, h4, h5⟩ := C30_pad env.σ m p l (Or.inr hl)
    refine ⟨a, lst_transform rfl rfl ?_, answers_of h3 h4 h5⟩
    show (v.asInt >>= _) = _
    rw [(asInt_iff v m).mpr hv]
    exact h2
  | ends b e =>
    obtain ⟨args, kwargs, v, w, hb, hv, hw, hc⟩ := h
    obtain ⟨h1, _, _⟩ := create_eq (env := env) (name := "AddSosEos") (c := Builtin.sosEos env) rfl
      sosEosParams rfl rfl (by decide) args kwargs
    have := h1 _ (lstOp (AddSosEos.transform env.σ b e)) hb (by
      show (v.asTok >>= _) = _
      rw [asTok_of hv, Except.bind_ok]
      show (w.asTok >>= _) = _
      rw [asTok_of hw]
      rfl)
    rw [hc] at this
    injection this with this
    subst this
    obtain ⟨a, h2, h3, h4, h5⟩ := C28_add_sos_eos env.σ b e l (List.length_pos_iff.mp hl.1) hl.2
    refine ⟨a, lst_transform rfl rfl h2, answers_of h3 h4 fun ys hy => ?_⟩
    obtain ⟨x, ys, rfl⟩ : ∃ x zs, ys = x :: zs := by
      cases ys with
      | nil => simp [Frame.size] at hy
      | cons x zs => exact ⟨x, zs, rfl⟩
    obtain ⟨zs, y, rfl⟩ : ∃ zs y, ys = zs ++ [y] := by
      rcases List.eq_nil_or_concat ys with rfl | ⟨zs, y, rfl⟩
      · simp [Frame.size] at hy
      · exact ⟨zs, y, by simp⟩
    have hz : zs.length = l.length := by simpa [Frame.size] using hy
    have := h5 zs x y hz
    rw [List.cons_append] at this
    rw [this]
    show _ = Except.ok ((zs ++ [y]).take l.length)
    rw [← hz, List.take_left']
    rfl
  | last e =>
    obtain ⟨args, kwargs, hb, hc⟩ := h
    obtain ⟨h1, h2, _⟩ := create_eq (env := env) (name := "AddEndToken") (c := Builtin.endTok env)
      rfl endTokenParams rfl rfl (by decide) args kwargs
    have hini : (Builtin.endTok env).init [.str e] =
        AddEndToken.init e >>= fun e => .ok (lstOp (AddEndToken.transform env.σ (.str e))) := rfl
    have hee : ∀ e', AddEndToken.init e = .ok e' → e' = e := by
      intro e' h
      unfold AddEndToken.init at h
      split at h <;> cases h
      rfl
    cases hi : AddEndToken.init e with
    | error x =>
      rw [hi] at hini
      rw [h2 _ x hb hini] at hc
      cases hc
    | ok e' =>
      obtain rfl := hee e' hi
      rw [hi] at hini
      rw [h1 _ _ hb hini] at hc
      injection hc with hc
      subst hc
      obtain ⟨a, h2, h3, h4, h5⟩ := C28_add_end_token env.σ (.str e') l hl
      refine ⟨a, lst_transform rfl rfl h2, answers_of h3 h4 fun ys hy => ?_⟩
      obtain ⟨zs, y, rfl⟩ : ∃ zs y, ys = zs ++ [y] := by
        rcases List.eq_nil_or_concat ys with rfl | ⟨zs, y, rfl⟩
        · simp [Frame.size] at hy
        · exact ⟨zs, y, by simp⟩
      have hz : zs.length = l.length := by simpa [Frame.size] using hy
      rw [h5 zs y hz]
      show _ = Except.ok ((zs ++ [y]).take l.length)
      rw [← hz, List.take_left']
      rfl

theorem frame_size (f : Frame) (l : List Tok) : (f.around l).length = f.size l.length := by
  cases f <;> simp [Frame.around, Frame.size]
  omega

theorem frame_map {T : Op} {good : Tok → Prop} {tr : Tok → Tok} {e : Exc} (hT : Translates T good tr e) {f f' : Frame}
    (h : Translated T f f') (l : List Tok) : f'.around (l.map tr) = (f.around l).map tr := by
  cases h with
  | pad m p p' h1 => simp [Frame.around, (translates_one hT h1).2]
  | ends b e b' e' h1 h2 => simp [Frame.around, (translates_one hT h1).2, (translates_one hT h2).2]
  | last e e' h1 => simp [Frame.around, (translates_one hT h1).2]

theorem frame_good {T : Op} {good : Tok → Prop} {tr : Tok → Tok} {e : Exc} (hT : Translates T good tr e) {f f' : Frame}
    (h : Translated T f f') {l : List Tok} (hl : ∀ t ∈ l, good t) : ∀ t ∈ f.around l, good t := by
  cases h with
  | pad m p p' h1 =>
    intro t ht
    rcases List.mem_append.mp ht with ht | ht
    · exact hl t (List.mem_of_mem_take ht)
    · rw [List.eq_of_mem_replicate ht]
      exact (translates_one hT h1).1
  | ends b e b' e' h1 h2 =>
    intro t ht
    simp only [Frame.around, List.cons_append, List.mem_cons, List.mem_append, List.not_mem_nil, or_false] at ht
    rcases ht with rfl | ht | rfl
    · exact (translates_one hT h1).1
    · exact hl t ht
    · exact (translates_one hT h2).1
  | last e e' h1 =>
    intro t ht
    simp only [Frame.around, List.mem_append, List.mem_cons, List.not_mem_nil, or_false] at ht
    rcases ht with ht | rfl
    · exact hl t ht
    · exact (translates_one hT h1).1

theorem frame_keeps {f : Frame} {l : List Tok} (h : f.Keeps l.length) : ∀ t ∈ l, t ∈ f.around l := by
  intro t ht
  cases f with
  | pad m p =>
    refine List.mem_append_left _ ?_
    rw [List.take_of_length_le h]
    exact ht
  | ends b e => simp [Frame.around, ht]
  | last e => simp [Frame.around, ht]

theorem translated_same {T : Op} {f f' : Frame} (h : Translated T f f') :
    f'.size = f.size ∧ f'.labels = f.labels ∧ f'.unlabels = f.unlabels ∧ ∀ n, f.Fits n → f'.Fits n := by
  cases h <;> exact ⟨rfl, rfl, rfl, fun _ h => h⟩

/-! ### one framing step -/

theorem answers_forward {a b : Aligner} {n m : Nat} {f g : List Int → List Int} (ha : Answers a n m f g)
    (hb : Answers b n m f g) (ls : List Int) : alignAll [a, .null m m] ls = alignAll [.null n n, b] ls := by
  show (a.transform ls >>= fun x => (Aligner.null m m).transform x >>= fun y => .ok y) =
    ((Aligner.null n n).transform ls >>= fun x => b.transform x >>= fun y => .ok y)
  by_cases hl : ls.length = n
  · obtain ⟨h1, h2⟩ := ha.forward ls hl
    rw [h1, Except.bind_ok, ((null_passThrough m) _ h2).1, ((null_passThrough n) _ hl).1, Except.bind_ok,
      Except.bind_ok, (hb.forward ls hl).1]
    rfl
  · rw [C15_transform_wrong_length a ls (by rw [ha.input]; exact hl),
      C15_transform_wrong_length (Aligner.null n n) ls hl]
    rfl

theorem answers_backward {a b : Aligner} {n m : Nat} {f g : List Int → List Int} (ha : Answers a n m f g)
    (hb : Answers b n m f g) (ys : List Int) : realignAll [a, .null m m] ys = realignAll [.null n n, b] ys := by
  rw [realignAll_cons, realignAll_cons, realignAll_cons, realignAll_cons]
  show ((Aligner.null m m).inverseTransform ys >>= fun x => a.inverseTransform x) =
    (b.inverseTransform ys >>= fun x => (Aligner.null n n).inverseTransform x)
  by_cases hl : ys.length = m
  · obtain ⟨h1, h2⟩ := hb.backward ys hl
    rw [h1, Except.bind_ok, ((null_passThrough m) _ hl).2, Except.bind_ok, ((null_passThrough n) _ h2).2,
      (ha.backward ys hl).1]
  · rw [C15_inverse_wrong_length b ys (by rw [hb.output]; exact hl),
      C15_inverse_wrong_length (Aligner.null m m) ys hl]
    rfl

theorem framed_two {F G : Op} {s t r : Seq} {a b : Aligner} (h1 : F.transform s = .ok (t, a))
    (h2 : G.transform t = .ok (r, b)) : Pipe.runSteps [F, G] s [] [] = .ok (r, [a, b], [t, r]) := by
  unfold Pipe.runSteps
  rw [h1, Except.bind_ok]
  dsimp only
  unfold Pipe.runSteps
  rw [h2]
  rfl

theorem frame_swap {env : Env} {T : Op} {good : Tok → Prop} {tr : Tok → Tok} {e : Exc} (hT : Translates T good tr e)
    {f f' : Frame} {F F' : Op} (hF : f.Is env F) (hF' : f'.Is env F') (ht : Translated T f f') (l : List Tok)
    (hl : f.Fits l.length) (hk : (∀ t ∈ l, good t) ∨ f.Keeps l.length) :
    SameOutcome (Pipe.runSteps [F, T] (.list l) [] []) (Pipe.runSteps [T, F'] (.list l) [] []) := by
  obtain ⟨a, h1, ha⟩ := frame_step hF l hl
  by_cases hg : ∀ t ∈ l, good t
  · obtain ⟨e1, e2, e3, e4⟩ := translated_same ht
    obtain ⟨b, h2, hb⟩ := frame_step hF' (l.map tr) (by rw [List.length_map]; exact e4 _ hl)
    rw [frame_map hT ht] at h2
    rw [e1, e2, e3, List.length_map] at hb
    have h3 := hT.1 (f.around l) (frame_good hT ht hg)
    rw [frame_size] at h3
    rw [framed_two h1 h3, framed_two (hT.1 l hg) h2]
    exact .ok _ _ _ _ _ (answers_forward ha hb) (answers_backward ha hb)
  · have hk := hk.resolve_left hg
    have hbad : ∃ t ∈ l, ¬ good t := by
      by_contra hc
      exact hg fun t ht => by
        by_contra hn
        exact hc ⟨t, ht, hn⟩
    have h3 : Pipe.runSteps [F, T] (.list l) [] [] = .error e := by
      obtain ⟨t, ht, hn⟩ := hbad
      unfold Pipe.runSteps
      rw [h1, Except.bind_ok]
      dsimp only
      unfold Pipe.runSteps
      rw [hT.2 _ ⟨t, frame_keeps hk t ht, hn⟩]
      rfl
    have h4 : Pipe.runSteps [T, F'] (.list l) [] [] = .error e := by
      unfold Pipe.runSteps
      rw [hT.2 _ hbad]
      rfl
    rw [h3, h4]
    exact .error e

/-! ### any number of framing steps -/

theorem same_then {xs ys : List Op} {s : Seq} (h : SameOutcome (Pipe.runSteps xs s [] []) (Pipe.runSteps ys s [] []))
    (post : List Op) : SameOutcome (Pipe.runSteps (xs ++ post) s [] []) (Pipe.runSteps (ys ++ post) s [] []) := by
  rw [runSteps_append, runSteps_append]
  cases e1 : Pipe.runSteps xs s [] [] with
  | error e =>
    rw [e1] at h
    cases e2 : Pipe.runSteps ys s [] [] with
    | error e' => rw [e2] at h; cases h; exact .error _
    | ok q => rw [e2] at h; cases h
  | ok r =>
    rw [e1] at h
    cases e2 : Pipe.runSteps ys s [] [] with
    | error e' => rw [e2] at h; cases h
    | ok q =>
      rw [e2] at h
      cases h with
      | ok out as bs c c' f b =>
        simp only [Except.bind_ok]
        rw [runSteps_acc post, runSteps_acc post out bs]
        exact sameOutcome_acc (sameOutcome_refl _) _ _ f b _ _

theorem then_same {F : Op} {s t : Seq} {a : Aligner} (hF : F.transform s = .ok (t, a)) {xs ys : List Op}
    (h : SameOutcome (Pipe.runSteps xs t [] []) (Pipe.runSteps ys t [] [])) :
    SameOutcome (Pipe.runSteps (F :: xs) s [] []) (Pipe.runSteps (F :: ys) s [] []) := by
  have e : ∀ zs, Pipe.runSteps (F :: zs) s [] [] = Pipe.runSteps zs t [a] [t] := by
    intro zs
    conv => lhs; unfold Pipe.runSteps
    rw [hF]
    rfl
  rw [e, e, runSteps_acc xs, runSteps_acc ys]
  exact sameOutcome_acc h _ _ (fun _ => rfl) (fun _ => rfl) _ _

theorem framings_same {env : Env} {T : Op} {good : Tok → Prop} {tr : Tok → Tok} {e : Exc} (hT : Translates T good tr e)
    {keep : Bool} {n : Nat} {Fs Fs' : List Op} (h : Framings env T keep n Fs Fs') :
    ∀ l : List Tok, l.length = n → ((∀ t ∈ l, good t) ∨ keep = true) →
      SameOutcome (Pipe.runSteps (Fs ++ [T]) (.list l) [] []) (Pipe.runSteps (T :: Fs') (.list l) [] []) := by
  induction h with
  | nil n => exact fun l _ _ => sameOutcome_refl _
  | cons n f f' F F' Fs Fs' hF hF' ht hfit hkeep _ ih =>
    intro l hl hk
    subst hl
    obtain ⟨a, h1, _⟩ := frame_step hF l hfit
    have h2 := ih (f.around l) (frame_size f l) (hk.imp (frame_good hT ht) id)
    have h3 := then_same h1 h2
    have h4 := same_then (frame_swap hT hF hF' ht l hfit (hk.imp id hkeep)) Fs'
    exact sameOutcome_trans h3 h4

theorem run_same {xs ys : List Op} {s : Seq} (h : SameOutcome (Pipe.runSteps xs s [] []) (Pipe.runSteps ys s [] [])) :
    SameOutcome (Pipe.transformSequence ⟨xs, []⟩ s) (Pipe.transformSequence ⟨ys, []⟩ s) := by
  unfold Pipe.transformSequence
  rw [runSteps_acc xs, runSteps_acc ys]
  exact sameOutcome_acc h [] [] (fun _ => rfl) (fun _ => rfl) _ _

/-- C111: a list whose tokens can be translated may be framed before it is translated, or after it with the translated
tokens: the same output, and the same answer to every list of labels in both directions. -/
theorem C111_frame (env : Env) (name : String) (T : Op) (hT : Made env name T) (hn : name ∈ translatorNames)
    (l : List Tok) (out : Seq) (hl : Gives T (.list l) out) (Fs Fs' : List Op)
    (h : Framings env T false l.length Fs Fs') :
    SameOutcome (Pipe.transformSequence ⟨Fs ++ [T], []⟩ (.list l)) (Pipe.transformSequence ⟨T :: Fs', []⟩ (.list l)) := by
  obtain ⟨good, tr, e, ht⟩ := translator_step hT hn
  refine run_same (framings_same ht h l rfl (Or.inl ?_))
  obtain ⟨a, ha⟩ := hl
  intro t hm
  by_contra hg
  rw [ht.2 l ⟨t, hm, hg⟩] at ha
  cases ha

/-- C111: if no `Pad` cuts tokens off, this holds for lists that cannot be translated too: the same exception. -/
theorem C111_frame_all (env : Env) (name : String) (T : Op) (hT : Made env name T) (hn : name ∈ translatorNames)
    (l : List Tok) (Fs Fs' : List Op) (h : Framings env T true l.length Fs Fs') :
    SameOutcome (Pipe.transformSequence ⟨Fs ++ [T], []⟩ (.list l)) (Pipe.transformSequence ⟨T :: Fs', []⟩ (.list l)) := by
  obtain ⟨good, tr, e, ht⟩ := translator_step hT hn
  exact run_same (framings_same ht h l rfl (Or.inr rfl))

/-- C111: this holds inside a pipe too, behind any steps that give the list and before any others. -/
theorem C111_in_pipe (env : Env) (name : String) (T : Op) (hT : Made env name T) (hn : name ∈ translatorNames)
    (pre post : List Op) (s : Seq) (l : List Tok) (as0 : List Aligner) (coll0 : List Seq)
    (hpre : Pipe.transformSequence ⟨pre, []⟩ s = .ok (.list l, as0, coll0)) (keep : Bool) (Fs Fs' : List Op)
    (h : Framings env T keep l.length Fs Fs') (hl : (∃ out, Gives T (.list l) out) ∨ keep = true) :
    SameOutcome (Pipe.transformSequence ⟨pre ++ (Fs ++ [T]) ++ post, []⟩ s)
      (Pipe.transformSequence ⟨pre ++ (T :: Fs') ++ post, []⟩ s) := by
  obtain ⟨good, tr, e, ht⟩ := translator_step hT hn
  have h1 := framings_same ht h l rfl (hl.imp (fun ⟨out, a, ha⟩ t hm => by
    by_contra hg
    rw [ht.2 l ⟨t, hm, hg⟩] at ha
    cases ha) id)
  unfold Pipe.transformSequence at hpre
  rw [runSteps_acc] at hpre
  obtain ⟨⟨o, as1, coll1⟩, hr, ho⟩ := bind_eq_ok hpre
  injection ho with ho
  injection ho with ho _
  dsimp only at ho
  subst ho
  refine run_same (same_then ?_ post)
  rw [runSteps_append, runSteps_append, hr, Except.bind_ok, Except.bind_ok, runSteps_acc (Fs ++ [T]),
    runSteps_acc (T :: Fs')]
  exact sameOutcome_acc h1 _ _ (fun _ => rfl) (fun _ => rfl) _ _

/-- C111: a `Pad` that cuts off the tokens that cannot be translated makes a difference. -/
theorem C111_cut : ∃ T F, Made exEnv "PureNum2Token" T ∧ (Frame.pad 1 (.str "p".toList)).Is exEnv F ∧
    Translated T (.pad 1 (.str "p".toList)) (.pad 1 (.str "p".toList)) ∧
    ((Pipe.transformSequence ⟨[F, T], []⟩ (.list [.str "a".toList, .int 5])).map Prod.fst) =
      .ok (.list [.str "a".toList]) ∧
    ((Pipe.transformSequence ⟨[T, F], []⟩ (.list [.str "a".toList, .int 5])).map Prod.fst) = .error .typeError :=
  ⟨_, _, ⟨[], [], rfl⟩, ⟨[.int 1, .str "p".toList], [], _, _, rfl, .int 1, .str _, rfl⟩, .pad _ _ _ ⟨_, rfl⟩, rfl, rfl⟩

theorem tokenwise_one {σ : SetOrder} {nv : Tok → Res (Option (List Tok))} {t : Tok}
    {mk : ReplacementGroup (List Tok) → Nat → Aligner} {out : List Tok} {a : Aligner}
    (h : tokenwiseTransform σ nv [t] mk = .ok (out, a)) : ∃ v, nv t = .ok v ∧ out = v.getD [t] := by
  obtain ⟨v, hv⟩ := tokenwise_values h t (by simp)
  rw [tokenwiseTransform_congr σ nv (fun _ => v) [t] (by simpa using hv)] at h
  injection h with h
  injection h with h _
  exact ⟨v, hv, by simpa using h.symm⟩

/-- C111: the end token of `AddEndToken` has to be added before the tokens are numbered: no `AddEndToken` has the number. -/
theorem C111_end_token (env : Env) (name : String) (T : Op) (hT : Made env name T)
    (hn : name ∈ ["Token2Index", "Token2IndexwithHash"]) (e : Str) (f : Frame) : ¬ Translated T (.last e) f := by
  intro h
  cases h with
  | last _ e' hg =>
    obtain ⟨a, hg⟩ := hg
    have hr := transform_run hg
    simp only [List.mem_cons, List.not_mem_nil, or_false] at hn
    rcases hn with rfl | rfl
    · obtain ⟨hc, vals, hi⟩ := made_any (c := Builtin.token2index env) rfl hT
      unfold Builtin.token2index Builtin.token2indexInit at hi
      dsimp only at hi
      split at hi
      · obtain ⟨d, _, hi⟩ := bind_eq_ok hi
        split at hi
        · obtain ⟨_, _, hi⟩ := bind_eq_ok hi
          rw [← Except.ok.inj hi] at hr
          obtain ⟨l, out, h1, h2, h3⟩ := lst_inv hr
          cases h1; cases h2
          obtain ⟨v, hv, ho⟩ := tokenwise_one h3
          unfold Token2Index.newValue at hv
          dsimp only at hv
          split at hv
          · cases hv; cases ho
          · split at hv <;> cases hv
            cases ho
        · obtain ⟨_, _, hi⟩ := bind_eq_ok hi
          split at hi <;> cases hi
      · cases hi
    · obtain ⟨hc, vals, hi⟩ := made_any (c := Builtin.token2indexHash env) rfl hT
      unfold Builtin.token2indexHash Builtin.token2indexHashInit at hi
      dsimp only at hi
      split at hi
      · obtain ⟨d, _, hi⟩ := bind_eq_ok hi
        obtain ⟨_, _, hi⟩ := bind_eq_ok hi
        rw [← Except.ok.inj hi] at hr
        obtain ⟨l, out, h1, h2, h3⟩ := lst_inv hr
        cases h1; cases h2
        obtain ⟨v, hv, ho⟩ := tokenwise_one h3
        unfold Token2IndexwithHash.newValue at hv
        dsimp only at hv
        split at hv <;> cases hv <;> cases ho
      · cases hi

/-! ### examples -/

/-- `AddSosEos()`, `Pad(5)`, `Token2Index(vocab)` may be written `Token2Index(vocab)`, `AddSosEos(1, 2)`, `Pad(5, 3)`. -/
example : ∃ T F G F' G', Made exEnv "Token2Index" T ∧ Gives T (.list [.str "a".toList, .str "b".toList])
      (.list [.int 4, .int 0]) ∧ Framings exEnv T true 2 [F, G] [F', G'] ∧
    (Pipe.transformSequence ⟨[F, G] ++ [T], []⟩ (.list [.str "a".toList, .str "b".toList])).map Prod.fst =
      .ok (.list [.int 1, .int 4, .int 0, .int 2, .int 3]) ∧
    (Pipe.transformSequence ⟨T :: [F', G'], []⟩ (.list [.str "a".toList, .str "b".toList])).map Prod.fst =
      .ok (.list [.int 1, .int 4, .int 0, .int 2, .int 3]) :=
  ⟨_, _, _, _, _, ⟨[.dict (exVocab.map fun kv => (kv.1, .int kv.2))], [], rfl⟩, ⟨_, rfl⟩,
    .cons 2 (.ends (.str "<sos>".toList) (.str "<eos>".toList)) (.ends (.int 1) (.int 2)) _ _ _ _
      ⟨[], [], _, _, rfl, .str _, .str _, rfl⟩ ⟨[.int 1, .int 2], [], _, _, rfl, .num _ _ (.int _), .num _ _ (.int _), rfl⟩
      (.ends _ _ _ _ ⟨_, rfl⟩ ⟨_, rfl⟩) ⟨by decide, by decide⟩ (fun _ => trivial)
      (.cons 4 (.pad 5 (.str "<pad>".toList)) (.pad 5 (.int 3)) _ _ _ _
        ⟨[.int 5], [], _, _, rfl, .int 5, .str _, rfl⟩ ⟨[.int 5, .int 3], [], _, _, rfl, .int 5, .num _ _ (.int _), rfl⟩
        (.pad _ _ _ ⟨_, rfl⟩) (by decide : 4 < 2 ^ 32) (fun _ => (by decide : 4 ≤ 5)) (.nil _)), rfl, rfl⟩

/-- `AddEndToken()` before and after `PureNum2Token()`. -/
example : ∃ T F, Made exEnv "PureNum2Token" T ∧ Gives T (.list [.str "12".toList]) (.list [.str "_num_".toList]) ∧
    Framings exEnv T true 1 [F] [F] :=
  ⟨_, _, ⟨[], [], rfl⟩, ⟨_, rfl⟩, .cons 1 (.last "<eos>".toList) (.last "<eos>".toList) _ _ _ _ ⟨[], [], rfl, rfl⟩
    ⟨[], [], rfl, rfl⟩ (.last _ _ ⟨_, rfl⟩) (by decide : 1 < 2 ^ 32) (fun _ => trivial) (.nil _)⟩

end Uttut
