import Verif.Props.MachineLimits
import Verif.Props.Raise

/-!
C91 for pipes made with arguments of the documented types: how long a text may be follows from the steps (C90).
-/

namespace Uttut

open Spec Machine

theorem length_le_seqSize (x : Seq) : x.length ≤ seqSize x := by
  cases x with
  | str s => exact Nat.le_refl _
  | list l =>
    show l.length ≤ (l.map tokSize).sum
    induction l with
    | nil => exact Nat.le_refl _
    | cons t l ih =>
      have : 1 ≤ tokSize t := by
        cases t with
        | str w => exact Nat.le_max_left _ _
        | int i => exact Nat.le_refl _
      simp only [List.length_cons, List.map_cons, List.sum_cons]
      omega

/-- C91: steps that fit together stay within the limits if the bound of C90 on the size of the output is at most 2^31. -/
theorem C91_small (env : Env) (he : env.Sane) (ops : List Op) (i q : Kind) (f : Nat → Nat) (es : List Exc)
    (h : Assembled env ops i q f es) (x : Seq) (hx : i.Holds x) (hs : f (seqSize x) ≤ 2 ^ 31) : SmallRun ops x := by
  induction h generalizing x with
  | nil q => trivial
  | cons op ops i o i' q k c f es es' hstep hfit hrest ih =>
    obtain ⟨hm1, hm2⟩ := assembled_mono hrest
    have hk := hstep.factor
    have hle : seqSize x ≤ k * seqSize x := Nat.le_mul_of_pos_left _ hk
    have h0 := hm1 (k * seqSize x + c)
    have hs : f (k * seqSize x + c) ≤ 2 ^ 31 := hs
    have hlx := length_le_seqSize x
    rcases C90_step env he op i o k c es hstep x hx (by omega) with ⟨t, a, h1, h2, h3, _⟩ | ⟨e, _, h1⟩
    · have hlt := length_le_seqSize t
      refine ⟨⟨by omega, ?_⟩, ?_⟩
      · intro t' a' h'
        rw [h1] at h'
        injection h' with h'
        injection h' with e1 _
        subst e1
        omega
      · intro t' a' h'
        rw [h1] at h'
        injection h' with h'
        injection h' with e1 _
        subst e1
        have := hm2 _ _ h3
        exact ih t (Uttut.Kind.Fits.holds hfit h2) (by omega)
    · refine ⟨⟨by omega, ?_⟩, ?_⟩
      · intro t' a' h'
        rw [h1] at h'
        cases h'
      · intro t' a' h'
        rw [h1] at h'
        cases h'

/-- C91: a pipe whose steps fit together works exactly on all inputs for which C90 bounds the size of the output by 2^31. -/
theorem C91_assembled (env : Env) (he : env.Sane) (p p' : Pipe) (h : SamePipeWithin p p') (i q : Kind) (f : Nat → Nat)
    (es : List Exc) (ha : Assembled env p'.steps i q f es) (x : Seq) (hx : i.Holds x) (hs : f (seqSize x) ≤ 2 ^ 31) :
    SameRun (p.transformSequence x) (p'.transformSequence x) :=
  C91_transform_sequence p p' h x (C91_small env he _ _ _ _ _ ha x hx hs)

theorem Spec.Pairwise₂.dropLast {α : Type} {R : α → α → Prop} {xs ys : List α} (h : Pairwise₂ R xs ys) :
    Pairwise₂ R xs.dropLast ys.dropLast := by
  induction h with
  | nil => exact .nil
  | cons x y xs ys hxy h ih =>
    cases h with
    | nil => exact .nil
    | cons x' y' xs ys h' t => exact .cons _ _ _ _ hxy ih

/-- C91: pipes built by the same calls of `add`. -/
theorem C91_addCalls (env : Env) (he : env.Sane) (calls : List AddCall) (p p' : Pipe) (h : SamePipeWithin p p') :
    SameMade SamePipeWithin (addCalls (Machine.registryDefault env) calls p)
      (addCalls (Builtin.registryDefault env) calls p') := by
  induction calls generalizing p p' with
  | nil => exact .ok _ _ h
  | cons c calls ih =>
    obtain ⟨h1, h2⟩ := add_within (machine_twins env he).dropLast p p' h c.name.toList (some c.kwargs) c.checkpoint
    unfold addCalls
    unfold Machine.registryDefault Builtin.registryDefault at *
    generalize p.add _ _ _ _ = x at h1 h2 ⊢
    generalize p'.add _ _ _ _ = y at h1 h2 ⊢
    obtain ⟨q, r⟩ := x
    obtain ⟨q', r'⟩ := y
    dsimp only at h1 h2
    subst h2
    cases r with
    | error e => exact .error e
    | ok _ => exact ih q q' h1

/-- C91: the pipe of the README, computed with 32-bit integers, on texts of up to about 10^8 characters: no exception on the
way of a prediction. -/
theorem C91_readme (env : Env) (he : env.Sane) (n : Nat) (d : List (Str × Int)) (hkeys : (d.map Prod.fst).Nodup)
    (hd : Continuous d) (hunk : "<unk>".toList ∈ d.map Prod.fst) (p : Pipe)
    (hp : addCalls (Machine.registryDefault env) (readmeCalls n d) Pipe.empty = .ok p) (σ : SetOrder) (t : OrdinalLabel)
    (ht : IsTransformer t) (hni : t.intent2index.length ≤ 2 ^ 31) (hne : t.entity2index.length < 2 ^ 31) (u : Str)
    (hu : u ≠ []) (hs : 21 * u.length + (10 + 5 * n) ≤ 2 ^ 31) :
    ∃ o as coll, p.transformSequence (.str u) = .ok (o, as, coll) ∧
      ∀ intents labels, KnownIntents t intents → KnownLabels t labels → labels.length = o.length →
        ∃ ls d r, realignAll as labels = .ok ls ∧ packToDatum u intents ls = .ok d ∧ t.humanize σ d = .ok r ∧
          r.utterance = u := by
  have hsame := C91_addCalls env he (readmeCalls n d) Pipe.empty Pipe.empty ⟨.nil, rfl⟩
  rw [hp] at hsame
  generalize hp' : addCalls (Builtin.registryDefault env) (readmeCalls n d) Pipe.empty = y at hsame
  cases hsame with
  | ok _ p' h =>
    have hinit : Token2Index.init d unkToken = .ok () := (C31_init d unkToken).1.mpr ⟨hd, hunk⟩
    obtain ⟨o, as, coll, h1, h2⟩ := C90_readme env he n d hkeys hd hunk p' hp' σ t ht hni hne u hu (by omega)
    rw [readme_build env n d hinit] at hp'
    injection hp' with hp'
    subst hp'
    have hr := C91_assembled env he p _ h _ _ _ _ (readme_assembled env n d hkeys hinit) (.str u) ⟨_, rfl⟩ hs
    rw [h1] at hr
    generalize p.transformSequence (.str u) = z at hr
    cases hr with
    | ok _ as' _ _ hab hf hb =>
      refine ⟨o, as', coll, rfl, fun intents labels hi hl hlen => ?_⟩
      rw [hb]
      exact h2 intents labels hi hl hlen

/-- The hypotheses of C91 can be met: a short text in the pipe of the README. -/
example : SmallRun (readmePipe exEnv 5 readmeVocab).steps (.str "I like 12 apples".toList) :=
  C91_small exEnv exEnv_sane _ _ _ _ _ (readme_assembled exEnv 5 readmeVocab (by decide)
    ((C31_init readmeVocab unkToken).1.mpr ⟨readmeVocab_continuous, by decide⟩)) _ ⟨_, rfl⟩ (by decide)

/-- C91: computed with 32-bit integers. -/
example : (Machine.aroundChar SetOrder.id isCJK "a字b".toList).map Prod.fst = .ok "a 字 b".toList := by decide

/-- C91: an edit by itself. -/
example : Machine.apply [Tok.int 1, .int 2, .int 3] ⟨[⟨1, 2, [.int 7, .int 8]⟩], true⟩ =
    .ok [.int 1, .int 7, .int 8, .int 3] := by decide

/-- C91: the padded list has labels up to 2^32 - 1 tokens (C30), and none from 2^32 tokens on. -/
example : ∃ a out, Machine.padTo SetOrder.id (2 ^ 32 : Nat) (.str padToken) [] = .ok (out, a) ∧
    ∀ ls, a.transform ls = .error .valueError := by
  obtain ⟨a, h1, h2, _⟩ := C91_pad_past SetOrder.id (2 ^ 32) (.str padToken) [] (by simp) (Nat.le_refl _)
  exact ⟨a, _, h1, h2⟩

end Uttut
