import Verif.Model.Pipe

/-! Specification of programs using pipes: the same commands on pipe values, without references. -/

namespace Uttut

/-- The pipes, and the intermediates with the pipe that produced them. -/
structure World where
  pipes : List Pipe
  inters : List (Nat × List Seq)

namespace World

/-- Replace a pipe by its new state. -/
def setPipe (w : World) (i : Nat) (p : Pipe) : World := { w with pipes := w.pipes.set i p }

/-- Add a pipe object. -/
def addPipe (w : World) (p : Pipe) : World := { w with pipes := w.pipes ++ [p] }

/-- The world after one command; a command that raises has the effect it had before raising, one that
names no pipe has none. -/
def step (w : World) : Cmd → World
  | .newPipe => w.addPipe Pipe.empty
  | .addOp i op ck =>
    match w.pipes[i]? with
    | some p => w.setPipe i (p.addOp op ck).1
    | none => w
  | .add i f name kw ck =>
    match w.pipes[i]? with
    | some p => w.setPipe i (p.add f name kw ck).1
    | none => w
  | .iadd i j =>
    match w.pipes[i]?, w.pipes[j]? with
    | some p, some q => w.setPipe i (p.iadd q).1
    | _, _ => w
  | .concat i j =>
    match w.pipes[i]?, w.pipes[j]? with
    | some p, some q =>
      match p.concat q with
      | .ok r => w.addPipe r
      | .error _ => w
    | _, _ => w
  | .copy i =>
    match w.pipes[i]? with
    | some p => w.addPipe p
    | none => w
  | .slice i a b c =>
    match w.pipes[i]? with
    | some p =>
      match p.getSlice a b c with
      | .ok r => w.addPipe r
      | .error _ => w
    | none => w
  | .deserialize f text =>
    match Pipe.deserialize f text with
    | .ok p => w.addPipe p
    | .error _ => w
  | .transformSequence i s =>
    match w.pipes[i]? with
    | some p =>
      match p.transformSequence s with
      | .ok (_, _, coll) => { w with inters := w.inters ++ [(i, coll)] }
      | .error _ => w
    | none => w
  | .transform i d =>
    match w.pipes[i]? with
    | some p =>
      match p.transform d with
      | .ok t => { w with inters := w.inters ++ [(i, t.collection)] }
      | .error _ => w
    | none => w

/-- The world after a list of commands. -/
def run (w : World) (cmds : List Cmd) : World := cmds.foldl step w

/-- `inter.get_from_checkpoint(name)` for the `k`-th intermediate; `none` if there is no such object. -/
def get (w : World) (k : Nat) (name : Str) : Option (Res Seq) :=
  match w.inters[k]? with
  | none => none
  | some (i, coll) =>
    match w.pipes[i]? with
    | none => none
    | some p => some (getFromCheckpoint p.checkpoints coll name)

end World

end Uttut
