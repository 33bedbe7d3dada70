import Verif.Model.Timer
/-!
# Vocabulary for C50–C52 and C72
-/
namespace Verif

/-- How many times the callback was called. -/
def callsOf (os : List TimerOut) : Nat := os.countP fun o => match o with | .called _ => true | _ => false

/-- The times at which the thread took its turn. -/
def turnsOf (os : List TimerOut) : List Int := os.filterMap fun o => match o with | .took t => some t | _ => none

/-- The times at which the thread took its turn (left) and at which the callback began (right), in order. -/
def marksOf (os : List TimerOut) : List (Int ⊕ Int) :=
  os.filterMap fun o => match o with | .took t => some (.inl t) | .called t => some (.inr t) | _ => none

/-- The timer was started at most once. -/
def StartedOnce (es : List TimerEv) : Prop := es.count .start ≤ 1

/-- Nobody stops the timer and the callback does not raise. -/
def Undisturbed (es : List TimerEv) : Prop := .stop ∉ es ∧ .fail ∉ es

end Verif
