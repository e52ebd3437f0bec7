import Mathlib.Data.List.Forall2
import Verif.Model.Signatures

/-! Specification for C97: how Python passes arguments, independently of the wrapper around constructors. -/

namespace Uttut.Spec

/-- A signature that Python accepts: distinct names, none of them `self`, defaults for the last parameters. -/
structure Writable (g : InitSig) : Prop where
  nodup : (g.params ++ g.kwOnly.map Prod.fst).Nodup
  self : "self".toList ∉ g.params ++ g.kwOnly.map Prod.fst
  defaults : g.defaults.length ≤ g.params.length

/-- The default value in the signature of the `i`-th parameter. -/
def DefaultOf (g : InitSig) (i : Nat) (v : PyVal) : Prop :=
  ∃ j, i = g.params.length - g.defaults.length + j ∧ g.defaults[j]? = some v

/-- `b` is what a function with signature `g` gets in the call `f(self, *args, **kwargs)`. -/
structure Gets (g : InitSig) (args : List PyVal) (kwargs : List (Str × PyVal)) (b : InitArgs) : Prop where
  /-- `self` is not given again. -/
  self : "self".toList ∉ kwargs.map Prod.fst
  /-- Nothing is given by position and by name. -/
  once : ∀ (i : Nat) (p : Str), g.params[i]? = some p → i < args.length → p ∉ kwargs.map Prod.fst
  /-- Surplus keyword arguments only go into `**kwargs`. -/
  names : g.varKw = true ∨ b.extra = []
  /-- Surplus positional arguments only go into `*args`. -/
  places : g.varArgs = true ∨ b.surplus = []
  /-- One value for every parameter: by position, else by name, else the default. -/
  length : b.values.length = g.params.length
  values : ∀ (i : Nat) (p : Str) (v : PyVal), g.params[i]? = some p → b.values[i]? = some v →
    args[i]? = some v ∨ (args.length ≤ i ∧ (p, v) ∈ kwargs) ∨
      (args.length ≤ i ∧ p ∉ kwargs.map Prod.fst ∧ DefaultOf g i v)
  /-- One value for every keyword-only parameter: by name, else the default. -/
  kwOnly : List.Forall₂ (fun p v => (p.1, v) ∈ kwargs ∨ (p.1 ∉ kwargs.map Prod.fst ∧ p.2 = some v)) g.kwOnly b.kwOnly
  /-- The positional arguments beyond the parameters, in order. -/
  surplus : b.surplus = args.drop g.params.length
  /-- The keyword arguments that name no parameter, in order. -/
  extra : b.extra = kwargs.filter fun kv => decide (kv.1 ∉ g.params ∧ kv.1 ∉ g.kwOnly.map Prod.fst)

end Uttut.Spec
