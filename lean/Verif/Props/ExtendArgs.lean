import Verif.Props.Extend
import Verif.Props.Construct

/-!
C85, arguments of classes written by users: parameters, defaults and the author's `__init__`.
-/

namespace Uttut

open Spec

/-- The parameters of `def __init__(self, r1, r2, ..., o1=v1, o2=v2, ...)`. -/
def Spec.signature (req : List String) (opt : List (String × PyVal)) : List Param :=
  req.map (fun r => (r, none)) ++ opt.map fun p => (p.1, some p.2)

theorem reverse_zip_same {α β : Type} : ∀ (l : List α) (m : List β), l.length = m.length →
    l.reverse.zip m.reverse = (l.zip m).reverse
  | [], [], _ => rfl
  | [], _ :: _, h => by cases h
  | _ :: _, [], h => by cases h
  | x :: l, y :: m, h => by
    have hl : l.length = m.length := by simpa using h
    rw [List.reverse_cons, List.reverse_cons, List.zip_append (by simpa using hl), reverse_zip_same l m hl]
    show (l.zip m).reverse ++ [(x, y)] = ((x, y) :: l.zip m).reverse
    rw [List.reverse_cons]

theorem signature_default {c : OpClass} (req : List String) (opt : List (String × PyVal))
    (hp : c.params = (req ++ opt.map Prod.fst).map String.toList) (hn : c.params.Nodup)
    (hd : c.defaults = opt.map Prod.snd) : ∀ p ∈ signature req opt, c.default? p.1.toList = p.2 := by
  have hz : c.params.reverse.zip c.defaults.reverse = (opt.map fun p => (p.1.toList, p.2)).reverse := by
    rw [hp, hd, List.map_append, List.reverse_append]
    have hl : ((opt.map Prod.fst).map String.toList).reverse.length = (opt.map Prod.snd).reverse.length := by simp
    conv_lhs => rw [← List.append_nil (opt.map Prod.snd).reverse]
    rw [List.zip_append hl, List.zip_nil_right, List.append_nil, reverse_zip_same _ _ (by simp)]
    congr 1
    clear hp hn hd hl
    induction opt with
    | nil => rfl
    | cons x opt ih => exact congrArg (_ :: ·) ih
  have hn' : (((opt.map fun p => (p.1.toList, p.2)).reverse).map Prod.fst).Nodup := by
    rw [List.map_reverse]
    rw [hp, List.map_append] at hn
    have := (List.nodup_append.mp hn).2.1
    rw [List.map_map] at this
    rw [List.map_map]
    exact List.pairwise_reverse.mpr (this.imp fun h e => h e.symm)
  intro p hm
  unfold OpClass.default?
  rw [hz]
  rcases List.mem_append.mp hm with h | h
  · obtain ⟨r, hr, rfl⟩ := List.mem_map.mp h
    refine (dictGet_none _ _).mpr fun hk => ?_
    rw [List.map_reverse, List.mem_reverse, List.map_map] at hk
    obtain ⟨q, hq, e⟩ := List.mem_map.mp hk
    rw [hp, List.map_append] at hn
    exact (List.nodup_append.mp hn).2.2 r.toList (List.mem_map_of_mem hr) q.1.toList
      (by rw [List.map_map]; exact List.mem_map.mpr ⟨q, hq, rfl⟩) e.symm
  · obtain ⟨q, hq, rfl⟩ := List.mem_map.mp h
    exact dictGet_of_mem _ _ _ hn' (List.mem_reverse.mpr (List.mem_map.mpr ⟨q, hq, rfl⟩))

/-- C85: the arguments of a class derived from one of the base classes. Python's rules decide: a call that leaves a
parameter without value, gives it two or names an unknown one raises TypeError; otherwise the author's `__init__` gets
the values given and the author's defaults for the rest, what it raises is raised, and the operator works with what it
makes of them. -/
theorem C85_arguments {α : Type} (c : UserClass α) (i o : SeqType) (run : α → Seq → Res (Seq × Aligner))
    (req : List String) (opt : List (String × PyVal)) (hp : c.params = (req ++ opt.map Prod.fst).map String.toList)
    (hn : c.params.Nodup) (hd : c.defaults = opt.map Prod.snd) (args : List PyVal) (kwargs : List (Str × PyVal)) :
    (bound (signature req opt) args kwargs = none → (c.toClass i o run).call args kwargs = .error .typeError) ∧
    ∀ vals, bound (signature req opt) args kwargs = some vals →
      (∀ e, c.init vals = .error e → (c.toClass i o run).call args kwargs = .error e) ∧
      ∀ x, c.init vals = .ok x → ∃ op, (c.toClass i o run).call args kwargs = .ok op ∧ op.run = run x ∧
        op.cls.name = c.name ∧ op.cls.inputType = i ∧ op.cls.outputType = o := by
  have hsig : (signature req opt).map (fun p => p.1.toList) = (req ++ opt.map Prod.fst).map String.toList := by
    simp [signature, Function.comp_def]
  have hb := bindArgs_bound (c.toClass i o run) (signature req opt) (by rw [hsig]; exact hp) hn
    (signature_default (c := c.toClass i o run) req opt hp hn hd) args kwargs
  unfold OpClass.call
  rw [hb]
  refine ⟨fun h => by rw [h]; rfl, fun vals h => ⟨fun e he => ?_, fun x hx => ?_⟩⟩
  · rw [h]
    show ((c.init vals >>= fun x => pure (run x)) >>= _) = _
    rw [he]
    rfl
  · rw [h]
    refine ⟨⟨c.toClass i o run, (c.toClass i o run).capture args kwargs, run x⟩, ?_, rfl, rfl, rfl, rfl⟩
    show ((c.init vals >>= fun x => pure (run x)) >>= _) = _
    rw [hx]
    rfl

/-- A tokenizer `def __init__(self, sep, keep=False)`. -/
def exSep : UserClass (Str → Res (List Str)) :=
  ⟨"SepTokenizer".toList, ["sep".toList, "keep".toList], [.bool false], true, fun vals => match vals with
    | [.str sep, .bool keep] => .ok fun s => .ok (if keep then [s, sep] else [s])
    | _ => .error .valueError⟩

/-- A concrete case of `C85_arguments`: the default is used, a missing argument is noticed. -/
example (env : Env) (f b : Transducer) :
    (exSep.tokenizer env f b).call [] [] = .error .typeError ∧
    (∃ op, (exSep.tokenizer env f b).call [.str ",".toList] [] = .ok op) ∧
    (exSep.tokenizer env f b).call [.int 3] [] = .error .valueError := by
  have key := C85_arguments exSep .str .list (fun tokenize => tokOp fun s => do
    let tokens ← tokenize s
    tokenizerTransform env.σ f b s tokens) ["sep"] [("keep", .bool false)] rfl (by decide) rfl
  refine ⟨(key [] []).1 rfl, ?_, ((key [.int 3] []).2 [.int 3, .bool false] rfl).1 .valueError rfl⟩
  obtain ⟨op, h, _⟩ := ((key [.str ",".toList] []).2 [.str ",".toList, .bool false] rfl).2 _ rfl
  exact ⟨op, h⟩

end Uttut
