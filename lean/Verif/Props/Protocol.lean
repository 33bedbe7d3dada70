import Verif.Model.Protocol
import Verif.Props.Proxy
/-!
# C89-C91: proxies in loops, in tests and under operators

"Use this (almost) exactly as you would a local object" (/repo/teleprox/server.py:75-77).
-/
namespace Verif

/-- The request for item `i` of the object of a proxy. -/
def itemReq (p : PObj) (i : Nat) (r : ProxyReq) : Prop :=
  r.req = ("call_obj", some (.dict [(.str "obj", .proxy { p.proxy with attrs := p.proxy.attrs ++ ["__getitem__"] }),
    (.str "args", .tuple [.int i]), (.str "kwargs", .dict [])]))

theorem op_getitem {p : PObj} (hp : Made p) (i : Nat) : ∃ r, p.op "__getitem__" [.int i] = some (.asks r) ∧ itemReq p i r := by
  obtain ⟨s, r, t, -, -, -, h⟩ := C47_forwards_partial hp (m := "__getitem__") (by decide +kernel) (by decide) [.int i] (by simp)
  exact ⟨_, h, rfl⟩

/-- **C89, partial.** A loop over a proxy visits exactly the values answered to the requests for items 0, 1, 2, …, in order, and asks for nothing else; then an exception ends it.
Missing: the end of the loop, see `C89_fails`. -/
theorem C89_items_partial {p : PObj} (hp : Made p) : ∀ (vs : List Val) (i : Nat) (x : Result) (as : List Result), (∀ v, x ≠ .value v) →
    ∃ rs e, p.loop i (vs.map .value ++ x :: as) = (rs, vs, e) ∧ rs.length = vs.length + 1 ∧ ∀ (j : Nat) (r : ProxyReq), rs[j]? = some r → itemReq p (i + j) r
  | [], i, x, as, hx => by
    obtain ⟨r, h1, h2⟩ := op_getitem hp i
    have h3 : ∃ e, p.loop i ([].map .value ++ x :: as) = ([r], [], e) := by
      simp only [List.map_nil, List.nil_append, PObj.loop, h1]
      cases x with
      | value v => exact absurd rfl (hx v)
      | _ => exact ⟨_, rfl⟩
    obtain ⟨e, h3⟩ := h3
    refine ⟨[r], e, h3, rfl, ?_⟩
    · intro j r' hj
      cases j with
      | zero => simp at hj; subst hj; exact h2
      | succ j => simp at hj
  | v :: vs, i, x, as, hx => by
    obtain ⟨r, h1, h2⟩ := op_getitem hp i
    obtain ⟨rs, e, h3, h4, h5⟩ := C89_items_partial hp vs (i + 1) x as hx
    refine ⟨r :: rs, e, by simp only [List.map_cons, List.cons_append, PObj.loop, h1, h3], by simp [h4], ?_⟩
    intro j r' hj
    cases j with
    | zero => simp at hj; subst hj; exact h2
    | succ j =>
      have := h5 j r' (by simpa using hj)
      rwa [show i + (j + 1) = i + 1 + j by omega]

/-- The answers to the requests for the items of a list: remote IndexError beyond its end. -/
def listAnswers (tb : Val) (l : List Val) (i : Nat) : Result :=
  match l[i]? with
  | some v => .value v
  | none => .remoteCall (.str "IndexError") tb

/-- **C89 fails** for every remote list: the IndexError that ends iteration by index arrives as RemoteCallException, so the loop visits all items and then raises. -/
theorem C89_fails {p : PObj} (hp : Made p) (tb : Val) (l : List Val) (n : Nat) (hn : l.length < n) :
    ∃ rs, p.loop 0 ((List.range n).map (listAnswers tb l)) = (rs, l, .raised (.remoteCall (.str "IndexError") tb)) := by
  have key : ∀ (l : List Val) (i : Nat), l.length < n - i → ∀ f : Nat → Result, (∀ j, f (i + j) = listAnswers tb l j) →
      ∃ rs, p.loop i ((List.range' i (n - i)).map f) = (rs, l, .raised (.remoteCall (.str "IndexError") tb)) := by
    intro l
    induction l with
    | nil =>
      intro i hi f hf
      obtain ⟨r, h1, -⟩ := op_getitem hp i
      refine ⟨[r], ?_⟩
      have h0 := hf 0
      simp only [Nat.add_zero, listAnswers, List.getElem?_nil] at h0
      rw [show n - i = (n - i - 1) + 1 by simp at hi; omega, List.range'_succ, List.map_cons, h0]
      simp only [PObj.loop, h1]
    | cons v l ih =>
      intro i hi f hf
      obtain ⟨r, h1, -⟩ := op_getitem hp i
      simp only [List.length_cons] at hi
      obtain ⟨rs, h2⟩ := ih (i + 1) (by omega) f (fun j => by
        have := hf (j + 1)
        rw [show i + (j + 1) = i + 1 + j by omega] at this
        rw [this]
        simp [listAnswers])
      have h0 := hf 0
      simp only [Nat.add_zero, listAnswers, List.getElem?_cons_zero] at h0
      refine ⟨r :: rs, ?_⟩
      rw [show n - i = (n - (i + 1)) + 1 by omega, List.range'_succ, List.map_cons, h0]
      simp only [PObj.loop, h1, h2]
  have := key l 0 (by omega) (listAnswers tb l) (fun j => by rw [Nat.zero_add])
  rwa [Nat.sub_zero, ← List.range_eq_range'] at this

/-- **C89 fails** in general: no loop over a proxy ends as loops do, whatever the remote object, unless the exception arises locally: an answer of the server never ends it. -/
theorem C89_never_ends {p : PObj} (hp : Made p) : ∀ (as : List Result) (i : Nat), (∀ e, .exc e ∈ as → e.endsLoop = false) →
    (match (p.loop i as).2.2 with | .stopped => False | _ => True)
  | [], i, _ => by simp [PObj.loop]
  | a :: as, i, h => by
    obtain ⟨r, h1, -⟩ := op_getitem hp i
    have ih := C89_never_ends hp as (i + 1) fun e he => h e (List.mem_cons_of_mem _ he)
    simp only [PObj.loop, h1]
    cases a with
    | value v => exact ih
    | exc e => simp [h e List.mem_cons_self]
    | remoteCall a b => trivial
    | runtimeError => trivial

/-- **C89** Exactly two exceptions end a loop as loops end: IndexError and StopIteration, raised in this process. -/
theorem C89_stops {p : PObj} (hp : Made p) (vs : List Val) (e : Exc) (as : List Result) :
    (p.loop 0 (vs.map .value ++ .exc e :: as)).2 = (vs, if e = .indexError ∨ e = .other "StopIteration" then .stopped else .raised (.exc e)) := by
  have key : ∀ (vs : List Val) (i : Nat), (p.loop i (vs.map .value ++ .exc e :: as)).2 = (vs, if e.endsLoop then .stopped else .raised (.exc e)) := by
    intro vs
    induction vs with
    | nil =>
      intro i
      obtain ⟨r, h1, -⟩ := op_getitem hp i
      simp only [List.map_nil, List.nil_append, PObj.loop, h1]
    | cons v vs ih =>
      intro i
      obtain ⟨r, h1, -⟩ := op_getitem hp i
      have h2 := ih (i + 1)
      simp only [List.map_cons, List.cons_append, PObj.loop, h1]
      simp only [h2]
  rw [key vs 0]
  have he : e.endsLoop = true ↔ e = .indexError ∨ e = .other "StopIteration" := by
    unfold Exc.endsLoop
    split
    · simp
    · simp
    · rename_i h1 h2
      simp only [Bool.false_eq_true, false_iff, not_or]
      exact ⟨h1, h2⟩
  by_cases h : e.endsLoop = true
  · rw [if_pos h, if_pos (he.1 h)]
  · rw [if_neg h, if_neg fun x => h (he.2 x)]

/-- **C89** (`x in p`) is never False: if an item equal to `x` comes before the first exception it is True, otherwise it raises (or still waits). -/
theorem C89_contains {p : PObj} (hp : Made p) (eq : Val → Bool) (vs : List Val) (x : Result) (as : List Result) (hx : ∀ v, x ≠ .value v) (hl : ∀ e, x = .exc e → e.endsLoop = false) :
    p.contains eq (vs.map .value ++ x :: as) = some (if vs.any eq then .ok true else .error x) := by
  have key : ∀ (vs : List Val) (i : Nat), ∃ rs, p.loop i (vs.map .value ++ x :: as) = (rs, vs, .raised x) := by
    intro vs
    induction vs with
    | nil =>
      intro i
      obtain ⟨r, h1, -⟩ := op_getitem hp i
      refine ⟨[r], ?_⟩
      simp only [List.map_nil, List.nil_append, PObj.loop, h1]
      cases x with
      | value v => exact absurd rfl (hx v)
      | exc e => simp [hl e rfl]
      | _ => rfl
    | cons v vs ih =>
      intro i
      obtain ⟨r, h1, -⟩ := op_getitem hp i
      obtain ⟨rs, h2⟩ := ih (i + 1)
      exact ⟨r :: rs, by simp only [List.map_cons, List.cons_append, PObj.loop, h1, h2]⟩
  obtain ⟨rs, h⟩ := key vs 0
  unfold PObj.contains
  rw [h]
  by_cases hv : vs.any eq <;> simp [hv]

/-! ## C90: truth -/

/-- What `bool(o)` is for an object with these methods: `__bool__`, otherwise whether `__len__` is not 0, otherwise True. -/
def pyTruth (bool : Option Bool) (len : Option Nat) : Bool :=
  match bool, len with
  | some b, _ => b
  | none, some n => n ≠ 0
  | none, none => true

/-- The answer of the server to the request for `__len__()`. -/
def lenAnswer (tb : Val) (len : Option Nat) : Result :=
  match len with
  | some n => .value (.int n)
  | none => .remoteCall (.str "AttributeError") tb

theorem op_len {p : PObj} (hp : Made p) : ∃ r, p.op "__len__" [] = some (.asks r) := by
  obtain ⟨s, r, t, -, -, -, h⟩ := C47_forwards_partial hp (m := "__len__") (by decide +kernel) (by decide) [] (by simp)
  exact ⟨_, h⟩

/-- **C90, partial.** For an object with `__len__` and without `__bool__`, `bool(p)` is the truth value of the object. Missing: all other objects, see `C90_fails`. -/
theorem C90_len_partial {p : PObj} (hp : Made p) (tb : Val) (n : Nat) (hn : n < 2 ^ 63) :
    p.truth (lenAnswer tb (some n)) = .ok (pyTruth none (some n)) := by
  obtain ⟨r, h⟩ := op_len hp
  have h1 : ¬ ((n : Int) < 0) := by omega
  have hn : (n : Int) ≤ pyMaxSize := by unfold pyMaxSize; omega
  simp [PObj.truth, h, lenAnswer, lenResult, pyIndex, h1, hn, pyTruth]

/-- **C90** For longer objects: OverflowError, as `bool` of an object of that length itself. -/
theorem C90_long {p : PObj} (hp : Made p) (tb : Val) (n : Nat) (hn : 2 ^ 63 ≤ n) : p.truth (lenAnswer tb (some n)) = .error (.exc (.other "OverflowError")) := by
  obtain ⟨r, h⟩ := op_len hp
  have h1 : ¬ ((n : Int) < 0) := by omega
  have hn : ¬ (n : Int) ≤ pyMaxSize := by unfold pyMaxSize; omega
  simp [PObj.truth, h, lenAnswer, lenResult, pyIndex, h1, hn]

/-- An answer of `__len__` that no Python length can be made of, and what `bool` raises then: `ValueError` for integers below 0, `TypeError` for all that is no integer.
Bools and numpy integers are integers to Python. -/
def badLength : Val → Option Exc
  | .int n => if n < 0 then some .valueError else none
  | .bool _ => none
  | .npScalar x => match x.dtype.kind, x.val with
    | .integer, .int n => if n < 0 then some .valueError else none
    | _, _ => some .typeError
  | _ => some .typeError

/-- **C90** A `__len__` that answers what is no length: `bool(p)` raises what `bool` of the object itself raises. -/
theorem C90_bad_length {p : PObj} (hp : Made p) {v : Val} {e : Exc} (hv : badLength v = some e) : p.truth (.value v) = .error (.exc e) := by
  obtain ⟨r, h⟩ := op_len hp
  suffices hl : lenResult v = .error e by simp [PObj.truth, h, hl]
  unfold lenResult
  cases v
  case int n =>
    simp only [badLength] at hv
    split at hv
    · rename_i hn; simp_all [pyIndex]
    · simp at hv
  case bool b => simp [badLength] at hv
  case npScalar x =>
    obtain ⟨⟨nm, sz, k, bf⟩, w⟩ := x
    cases k <;> cases w <;> simp only [badLength, pyIndex] at hv ⊢ <;> first
      | (split at hv <;> simp_all)
      | simp_all
  all_goals simp_all [badLength, pyIndex]

example : badLength (.int (-3)) = some .valueError ∧ badLength (.str "three") = some .typeError ∧ badLength .none = some .typeError := by
  refine ⟨by decide +kernel, rfl, rfl⟩

/-- **C90** Other integers count as lengths: `False` and `True`, and integers of numpy that are not negative. -/
theorem C90_integers {p : PObj} (hp : Made p) :
    (∀ b, p.truth (.value (.bool b)) = .ok b) ∧
    ∀ (dt : DType) (n : Int), dt.kind = .integer → 0 ≤ n → n < 2 ^ 63 → p.truth (.value (.npScalar ⟨dt, .int n⟩)) = .ok (decide (n ≠ 0)) := by
  obtain ⟨r, h⟩ := op_len hp
  refine ⟨fun b => ?_, fun dt n hk h0 h1 => ?_⟩
  · cases b <;> simp [PObj.truth, h, lenResult, pyIndex, show (1 : Int) ≤ pyMaxSize by decide, show (0 : Int) ≤ pyMaxSize by decide]
  · obtain ⟨nm, sz, k, bf⟩ := dt
    subst hk
    have h2 : ¬ n < 0 := by omega
    have h3 : n ≤ pyMaxSize := by unfold pyMaxSize; omega
    simp [PObj.truth, h, lenResult, pyIndex, h2, h3]
    by_cases h5 : n = 0
    · simp [h5]
    · have : 0 < n := by omega
      simp [h5, this]

/-- **C90 fails**: every object without `__len__` is true, with `__bool__` or not, but testing a proxy of it raises RemoteCallException (AttributeError); and the answer of
`__bool__` is never asked for: for an object with length the test of the proxy says whether that is 0. -/
theorem C90_fails {p : PObj} (hp : Made p) (tb : Val) :
    p.truth (lenAnswer tb none) = .error (.remoteCall (.str "AttributeError") tb) ∧ pyTruth none none = true ∧
    p.truth (lenAnswer tb (some 0)) = .ok false ∧ pyTruth (some true) (some 0) = true := by
  obtain ⟨r, h⟩ := op_len hp
  refine ⟨by simp [PObj.truth, h, lenAnswer], rfl, by simp [PObj.truth, h, lenAnswer, lenResult, pyIndex, show (0 : Int) ≤ pyMaxSize by decide], rfl⟩

/-! ## C91: operators on values -/

/-- The outcome of an operation on local objects. -/
inductive PyOut where
  | value (v : Val)
  | raises (e : Exc)

/-- Call a method, missing ones count as `NotImplemented`. -/
def Methods.try (o : Methods) (m : String) (args : List Val) : MethRes :=
  match o m with
  | some f => f args
  | none => .notImplemented

/-- `o op x` in Python, for operands of different types of which `x`'s is no subclass of `o`'s: the method of the left operand, then the reflected method of the right one,
otherwise TypeError. -/
def pyBinary (o x : Methods) (vo vx : Val) (m r : String) : PyOut :=
  match o.try m [vx] with
  | .value v => .value v
  | .raises e => .raises e
  | .notImplemented =>
    match x.try r [vo] with
    | .value v => .value v
    | .raises e => .raises e
    | .notImplemented => .raises .typeError

/-- `o op= x` in Python: the in-place method, then as `o op x`. -/
def pyInplace (o x : Methods) (vo vx : Val) (im m r : String) : PyOut :=
  match o.try im [vx] with
  | .value v => .value v
  | .raises e => .raises e
  | .notImplemented => pyBinary o x vo vx m r

/-- The outcome through the proxy is that of the local operation: the same value, or RemoteCallException naming the exception. -/
def SameOutcome : Result → PyOut → Prop
  | .value v, .value w => v = w
  | .remoteCall (.str n) _, .raises e => n = e.name
  | _, _ => False

theorem binary_eq {p : PObj} (hp : Made p) (answer : String → List Val → Result) {m : String} (hm : m ∈ operatorNames) (hx : m ≠ "__rxor__") (he : m ≠ "__eq__") (x : Val) :
    p.binary answer m x = some (answer m [x]) := by
  obtain ⟨s, r, t, -, -, -, h⟩ := C47_forwards_partial hp hm hx [x] (fun h => absurd h he)
  simp [PObj.binary, h]

/-- **C91, partial.** If the remote object has the method and it does not return `NotImplemented`, the operator on the proxy has the outcome of the operator on the object.
Missing: `NotImplemented` and missing methods, see `C91_fails`; and `__rxor__` (C47). -/
theorem C91_binary_partial {p : PObj} (hp : Made p) {m : String} (hm : m ∈ operatorNames) (hrx : m ≠ "__rxor__") (he : m ≠ "__eq__") (o x : Methods) (vo vx : Val) (r : String) (ni : Proxy) (tb : Val)
    {f : List Val → MethRes} (hf : o m = some f) (hni : f [vx] ≠ .notImplemented) :
    ∃ a, p.binary (o.answer ni tb) m vx = some a ∧ SameOutcome a (pyBinary o x vo vx m r) := by
  refine ⟨_, binary_eq hp _ hm hrx he vx, ?_⟩
  simp only [Methods.answer, pyBinary, Methods.try, hf]
  cases hv : f [vx] with
  | value v => rfl
  | notImplemented => exact absurd hv hni
  | raises e => rfl

/-- **C91, partial**, in-place operators the class has. -/
theorem C91_inplace_partial {p : PObj} (hp : Made p) {im : String} (hm : im ∈ operatorNames) (hrx : im ≠ "__rxor__") (he : im ≠ "__eq__") (o x : Methods) (vo vx : Val) (m r : String) (ni : Proxy) (tb : Val)
    {f : List Val → MethRes} (hf : o im = some f) (hni : f [vx] ≠ .notImplemented) :
    ∃ a, p.inplace (o.answer ni tb) im m vx = some a ∧ SameOutcome a (pyInplace o x vo vx im m r) := by
  have hin : opTable.any (·.1 = im) = true := by
    have h2 : ∀ x ∈ operatorNames, opTable.any (·.1 = x) = true := by decide +kernel
    exact h2 im hm
  refine ⟨o.answer ni tb im [vx], ?_, ?_⟩
  · unfold PObj.inplace
    rw [if_pos hin]
    exact binary_eq hp _ hm hrx he vx
  · simp only [Methods.answer, pyInplace, Methods.try, hf]
    cases hv : f [vx] with
    | value v => rfl
    | notImplemented => exact absurd hv hni
    | raises e => rfl

/-- **C91 fails** whenever the left operand leaves the operation to the right one: the result is a proxy of `NotImplemented`, whatever the right operand would have done. -/
theorem C91_fails {p : PObj} (hp : Made p) {m : String} (hm : m ∈ operatorNames) (hrx : m ≠ "__rxor__") (he : m ≠ "__eq__") (o : Methods) (vx : Val) (ni : Proxy) (tb : Val)
    {f : List Val → MethRes} (hf : o m = some f) (hni : f [vx] = .notImplemented) :
    p.binary (o.answer ni tb) m vx = some (.value (.proxy ni)) := by
  rw [binary_eq hp _ hm hrx he vx]
  simp [Methods.answer, hf, hni]

/-- **C91 fails** for in-place operators on objects without in-place methods, such as numbers and strings: AttributeError, where Python falls back to the binary operator. -/
theorem C91_fails_inplace {p : PObj} (hp : Made p) {im : String} (hm : im ∈ operatorNames) (hrx : im ≠ "__rxor__") (he : im ≠ "__eq__") (o : Methods) (vx : Val) (m : String) (ni : Proxy) (tb : Val)
    (hf : o im = none) : p.inplace (o.answer ni tb) im m vx = some (.remoteCall (.str "AttributeError") tb) := by
  have hin : opTable.any (·.1 = im) = true := by
    have h2 : ∀ x ∈ operatorNames, opTable.any (·.1 = x) = true := by decide +kernel
    exact h2 im hm
  unfold PObj.inplace
  rw [if_pos hin, binary_eq hp _ hm hrx he vx]
  simp [Methods.answer, hf, Exc.name]

namespace Ex

/-- a remote list of three numbers (C89) -/
example : (match prox.loop 0 ((List.range 5).map (listAnswers .none [.int 4, .int 5, .int 6])) with
    | (_, [.int 4, .int 5, .int 6], .raised (.remoteCall (.str "IndexError") _)) => true
    | _ => false) = true := by decide +kernel

/-- an int of the server: `+` with another int works, with a float of the client it does not (C91) -/
def intMethods (n : Int) : Methods
  | "__add__" => some fun
    | [.int k] => .value (.int (n + k))
    | _ => .notImplemented
  | _ => none
/-- a local object that can be added to an int from the right -/
def rightAdder : Methods
  | "__radd__" => some fun _ => .value (.int 100)
  | _ => none

example : ∃ a, prox.binary ((intMethods 3).answer prox.proxy .none) "__add__" (.int 4) = some a ∧
    SameOutcome a (pyBinary (intMethods 3) (intMethods 4) (.int 3) (.int 4) "__add__" "__radd__") :=
  C91_binary_partial prox_made (by decide +kernel) (by decide) (by decide) _ _ _ _ _ _ _ (f := _) rfl (by simp)

/-- the statement of C91 is false: here the local operation gives 100, the one through the proxy a proxy -/
example : (match pyBinary (intMethods 3) rightAdder (.int 3) (.obj 1 [.user 1]) "__add__" "__radd__" with | .value (.int 100) => true | _ => false) = true ∧
    (match prox.binary ((intMethods 3).answer prox.proxy .none) "__add__" (.obj 1 [.user 1]) with | some (.value (.proxy _)) => true | _ => false) = true := by decide +kernel
/-- and here `n += 4` gives 7 locally, AttributeError through the proxy -/
example : (match pyInplace (intMethods 3) (intMethods 4) (.int 3) (.int 4) "__iadd__" "__add__" "__radd__" with | .value (.int 7) => true | _ => false) = true ∧
    (match prox.inplace ((intMethods 3).answer prox.proxy .none) "__iadd__" "__add__" (.int 4) with | some (.remoteCall (.str "AttributeError") _) => true | _ => false) = true := by decide +kernel

end Ex

namespace Ex

/-! ## The theorems on these cases -/

example := C90_integers prox_made
example := C89_items_partial prox_made [.int 4, .int 5] 0 (.remoteCall (.str "IndexError") .none) [.value (.int 9)] (by simp)
example := C89_fails prox_made .none [.int 4, .int 5, .int 6] 5 (by decide)
example := C89_never_ends prox_made [.value (.int 4), .exc .keyError] 0 (by simp; decide)
example := C89_stops prox_made [.int 4, .int 5] .indexError []
example := C89_contains prox_made (fun v => match v with | .int 5 => true | _ => false) [.int 4, .int 5] (.remoteCall (.str "IndexError") .none) [] (by simp) (by simp)
example := C90_len_partial prox_made .none 3 (by decide)
example := C90_long prox_made .none (2 ^ 63) (Nat.le_refl _)
example := C90_bad_length prox_made (v := .int (-3)) (e := .valueError) (by decide +kernel)
example := C90_fails prox_made .none
/-- a list of the server: `+=` with a list works -/
def listMethods : Methods
  | "__iadd__" => some fun
    | [.list l] => .value (.list (.int 1 :: l))
    | _ => .notImplemented
  | _ => none
example := C91_inplace_partial prox_made (im := "__iadd__") (by decide +kernel) (by decide) (by decide) listMethods listMethods (.list [.int 1]) (.list [.int 2]) "__add__" "__radd__"
  prox.proxy .none (f := _) rfl (by simp)
example := C91_fails prox_made (m := "__add__") (by decide +kernel) (by decide) (by decide) (intMethods 3) (.obj 1 [.user 1]) prox.proxy .none (f := _) rfl (by rfl)
example := C91_fails_inplace prox_made (im := "__iadd__") (by decide +kernel) (by decide) (by decide) (intMethods 3) (.int 4) "__add__" prox.proxy .none rfl

end Ex

end Verif
