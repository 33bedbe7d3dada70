import Verif.Model.Registry
/-!
# What the registries should do, told from what can be observed
-/
namespace Verif

/-- The server registered for thread `t` after what was observed: the last one added and not removed since. -/
def holder (t : Nat) (os : List RegOut) : Option Nat :=
  os.foldl (fun h o => match o with
    | .added t' s => if t' = t then some s else h
    | .removed t' _ => if t' = t then none else h
    | _ => h) none

/-- Thread `t` is in the middle of registering server `s`. -/
def RegSt.registering (σ : RegSt) (t s : Nat) : Prop := σ.pc t = .checked s ∨ σ.pc t = .inserted s

/-- No two threads register the same server at the same time. -/
def SerialReg (es : List RegEv) : Prop :=
  ∀ pre t s post, es = pre ++ .register t s :: post → ∀ t', t' ≠ t → ¬ (RegSt.run {} pre).1.registering t' s

/-- Client `c` was made by thread `t` for address `a`, and has neither failed to connect nor been closed. -/
def Living (os : List CacheOut) (t : Nat) (a : Bytes) (c : Nat) : Prop :=
  .began t a c ∈ os ∧ (∀ t', .closed t' c ∉ os) ∧ ∀ t' a' e, .broke t' a' c e ∉ os

/-- Clients are closed by their own thread, once, and not while they are being constructed. -/
def Orderly (es : List CacheEv) : Prop :=
  ∀ pre t c post, es = pre ++ .close t c :: post →
    (∃ a, Living (CacheSt.run {} pre).2 t a c) ∧ c ∉ (CacheSt.run {} pre).1.building t

end Verif
