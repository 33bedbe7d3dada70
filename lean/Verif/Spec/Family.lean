import Verif.Model.Family
/-!
# The end of a process: what is claimed
-/
namespace Verif

/-- `c` was started by `r`, or by a process below `r`, and not as a daemon. -/
inductive FamSt.Below (s : FamSt) (r : Nat) : Nat → Prop where
  | child (c : Nat) : c ∈ (s.procs r).children → s.Below r c
  | further (p c : Nat) : s.Below r p → c ∈ (s.procs p).children → s.Below r c

/-- The program of the process is over, or its server has closed. -/
def FamProc.over (P : FamProc) : Prop := P.pc ≠ .running ∧ P.pc ≠ .stuck

/-- The process goes on by itself: this event is the next thing it does. -/
def FamSt.Goes (s : FamSt) : FamEv → Prop
  | .serve p => p < s.next ∧ (s.procs p).pc = .running ∧ (s.procs p).asked = true
  | .stop p => p < s.next ∧ ∃ c l, (s.procs p).pc = .exiting (c :: l)
  | .ended p => p < s.next ∧ ∃ c l, (s.procs p).pc = .waiting c l ∧ (s.procs c).pc = .gone
  | .timeout p => p < s.next ∧ ∃ c l, (s.procs p).pc = .waiting c l
  | .exit p => p < s.next ∧ (s.procs p).pc = .exiting []
  | _ => False

/-- A run in which nothing happens but processes going on by themselves. -/
def FamSt.GoOn (s : FamSt) : List FamEv → Prop
  | [] => True
  | e :: es => s.Goes e ∧ (s.step e).GoOn es

/-- No process goes on by itself. -/
def FamSt.Still (s : FamSt) : Prop := ∀ e, ¬ s.Goes e

/-- How many steps a process still has to do at most. -/
def FamProc.left (P : FamProc) : Nat :=
  match P.pc with
  | .running => 2 * P.children.length + 2
  | .stuck | .gone => 0
  | .exiting l => 2 * l.length + 1
  | .waiting _ l => 2 * l.length + 2

/-- How many steps all processes still have to do at most. -/
def FamSt.left (s : FamSt) : Nat := ((List.range s.next).map fun p => (s.procs p).left).sum

end Verif
