import Verif.Spec.Transport
/-! # A concrete library and concrete ends of a connection, used to show that hypotheses can be met -/
namespace Verif.Ex

/-- float64 -/
def f8 : DType := ⟨"float64", 8, .floating, true⟩
/-- int32 -/
def i4 : DType := ⟨"int32", 4, .integer, true⟩
/-- float32 -/
def f4 : DType := ⟨"float32", 4, .floating, true⟩
/-- a structured dtype -/
def rec : DType := ⟨"[('x', '<i2')]", 2, .other, true⟩

/-- timedelta64 in milliseconds -/
def m8 : DType := ⟨"timedelta64[ms]", 8, .timedelta, true⟩
/-- longdouble -/
def g16 : DType := ⟨"float128", 16, .longdouble, true⟩

/-- A small library: pickles integers, the six dtypes and one class of objects. -/
def lib : Lib where
  pickleDumps
    | .int i => if 0 ≤ i then .ok (1 :: List.replicate i.toNat 0) else .ok (2 :: List.replicate (-i).toNat 0)
    | .dtype d => if d = f8 then .ok [3] else if d = i4 then .ok [4] else if d = rec then .ok [5]
        else if d = f4 then .ok [7] else if d = m8 then .ok [8] else if d = g16 then .ok [9] else .error .typeError
    | .obj o [.sharedMemory] => .ok (6 :: List.replicate o 0)
    | _ => .error (.other "PicklingError")
  pickleLoads
    | 1 :: r => .ok (.int r.length)
    | 2 :: r => .ok (.int (-r.length))
    | [3] => .ok (.dtype f8)
    | [4] => .ok (.dtype i4)
    | [5] => .ok (.dtype rec)
    | [7] => .ok (.dtype f4)
    | [8] => .ok (.dtype m8)
    | [9] => .ok (.dtype g16)
    | 6 :: r => .ok (.obj r.length [.sharedMemory])
    | _ => .error (.other "UnpicklingError")
  dtypeParse n := if n = "float64" then .ok f8 else if n = "int32" then .ok i4 else if n = "float32" then .ok f4
    else .error .typeError
  dtypeExec n := if n = "[('x', '<i2')]" then .ok rec else .error .typeError
  floatRepr f := "f" ++ toString f
  ldToFloat n := n
  ldOfFloat n := n
  padYear := false
  known d := d = f8 ∨ d = i4 ∨ d = rec ∨ d = f4

theorem laws : lib.Laws where
  pickle v b h := by
    cases v <;> simp only [lib, reduceCtorEq] at h
    case int i =>
      split at h <;> simp only [Except.ok.injEq] at h <;> subst h <;> simp only [lib, List.length_replicate] <;>
        congr 2 <;> omega
    case dtype d =>
      by_cases h1 : d = f8
      · subst h1; simp only [if_true, Except.ok.injEq] at h; subst h; rfl
      by_cases h2 : d = i4
      · subst h2; simp only [h1, if_true, if_false, Except.ok.injEq] at h; subst h; rfl
      by_cases h3 : d = rec
      · subst h3; simp only [h1, h2, if_true, if_false, Except.ok.injEq] at h; subst h; rfl
      by_cases h4 : d = f4
      · subst h4; simp only [h1, h2, h3, if_true, if_false, Except.ok.injEq] at h; subst h; rfl
      by_cases h5 : d = m8
      · subst h5; simp only [h1, h2, h3, h4, if_true, if_false, Except.ok.injEq] at h; subst h; rfl
      by_cases h6 : d = g16
      · subst h6; simp only [h1, h2, h3, h4, h5, if_true, if_false, Except.ok.injEq] at h; subst h; rfl
      · simp [h1, h2, h3, h4, h5, h6] at h
    case obj o ts =>
      split at h
      · rename_i he; cases he
      · rename_i he; cases he
      · rename_i he; cases he
        simp only [Except.ok.injEq] at h; subst h; simp [lib]
      · simp at h
  pickleInt i := by simp only [lib]; split <;> exact ⟨_, rfl⟩
  dtypePickles d h := by
    simp only [lib, decide_eq_true_eq] at h
    rcases h with rfl | rfl | rfl | rfl
    · exact ⟨_, rfl⟩
    · exact ⟨_, rfl⟩
    · exact ⟨_, rfl⟩
    · exact ⟨_, rfl⟩
  parse d h h1 h2 := by
    simp only [lib, decide_eq_true_eq] at h
    rcases h with rfl | rfl | rfl | rfl
    · rfl
    · rfl
    · exact absurd rfl h1
    · rfl
  exec d h h1 := by
    simp only [lib, decide_eq_true_eq] at h
    rcases h with rfl | rfl | rfl | rfl
    · exact absurd h1 (by decide)
    · exact absurd h1 (by decide)
    · rfl
    · exact absurd h1 (by decide)
  noParse n h := by
    simp only [lib]
    split
    · rename_i he; subst he; exact absurd h (by decide)
    · split
      · rename_i he; subst he; exact absurd h (by decide)
      · split
        · rename_i he; subst he; exact absurd h (by decide)
        · rfl

/-- Server A sends. -/
def sendA : SendEnv where
  lib := lib
  server := some "tcp://a:1"
  idOf o := o + 1000
  ident | .obj o _ => o
        | _ => 0
  typeStr _ := "<class 'Thing'>"
  tys := defaultTypes

/-- A thread without a server sends. -/
def sendNone : SendEnv := { sendA with server := none }

/-- Client B, which runs its own server, receives. -/
def recvB : RecvEnv := ⟨lib, some ("tcp://b:2", fun _ => .error .keyError)⟩

/-- A shows its objects as `Thing`s. -/
def view (o : Obj) : Val := .obj o [.user 1]

/-- Attribute access in A. -/
def ga : Val → String → Except Exc Val
  | .obj 5 _, "x" => .ok (.obj 6 [.user 1])
  | .obj 6 _, "y" => .ok (.int 42)
  | _, _ => .error .attributeError

/-- B sends, owning nothing of A. -/
def sendB : SendEnv := { sendA with server := some "tcp://b:2" }

theorem linkAB : Link lib sendA recvB where
  laws := laws
  sender := rfl
  receiver := rfl
  types _ h := h
  notOwner a u h := by
    simp only [recvB, Option.some.injEq, Prod.mk.injEq] at h
    rw [← h.1]; decide

theorem linkNone : Link lib sendNone recvB where
  laws := laws
  sender := rfl
  receiver := rfl
  types _ h := h
  notOwner a u h := by simp [sendNone]

theorem alive (h : RefHistory) (E : SendEnv) (hE : E.idOf = fun o => o + 1000) : Alive E h where
  sent u u' h := by rw [hE] at h; exact Nat.add_right_cancel h
  held x _ u h := by rw [hE] at h; exact Nat.add_right_cancel h

end Verif.Ex
