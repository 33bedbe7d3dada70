import Verif.Props.System
import Verif.Props.ClientExample
/-! # A concrete system, used to show that hypotheses can be met

An encoding of numbers, texts and message trees as bytes that can be read back, and a run of a server with two clients. -/
namespace Verif.Ex

/-! ## Encodings -/

def encNat : Nat → Bytes
  | 0 => [0]
  | n + 1 => 1 :: encNat n
def decNat : Bytes → Option (Nat × Bytes)
  | [] => none
  | b :: r => if b = 0 then some (0, r) else (decNat r).map fun p => (p.1 + 1, p.2)

theorem decNat_enc (r : Bytes) : ∀ n, decNat (encNat n ++ r) = some (n, r)
  | 0 => rfl
  | n + 1 => by simp [encNat, decNat, decNat_enc r n]

def encInt : Int → Bytes
  | .ofNat n => 0 :: encNat n
  | .negSucc n => 1 :: encNat n
def decInt : Bytes → Option (Int × Bytes)
  | [] => none
  | b :: r => (decNat r).map fun p => (if b = 0 then .ofNat p.1 else .negSucc p.1, p.2)

theorem decInt_enc (r : Bytes) (i : Int) : decInt (encInt i ++ r) = some (i, r) := by
  cases i <;> simp [encInt, decInt, decNat_enc]

def encBytes : Bytes → Bytes
  | [] => [0]
  | b :: r => 1 :: b :: encBytes r
def decBytes : Bytes → Option (Bytes × Bytes)
  | 0 :: r => some ([], r)
  | _ :: b :: r => (decBytes r).map fun p => (b :: p.1, p.2)
  | _ => none

theorem decBytes_enc (r : Bytes) : ∀ b, decBytes (encBytes b ++ r) = some (b, r)
  | [] => rfl
  | b :: bs => by simp [encBytes, decBytes, decBytes_enc r bs]

def encChars : List Char → Bytes
  | [] => [0]
  | c :: r => 1 :: .ofNat (c.toNat / 65536) :: .ofNat (c.toNat / 256 % 256) :: .ofNat (c.toNat % 256) :: encChars r
def decChars : Bytes → Option (List Char × Bytes)
  | 0 :: r => some ([], r)
  | _ :: a :: b :: c :: r => (decChars r).map fun p => (Char.ofNat (a.toNat * 65536 + b.toNat * 256 + c.toNat) :: p.1, p.2)
  | _ => none

theorem char_bytes (c : Char) : Char.ofNat ((UInt8.ofNat (c.toNat / 65536)).toNat * 65536 + (UInt8.ofNat (c.toNat / 256 % 256)).toNat * 256 +
    (UInt8.ofNat (c.toNat % 256)).toNat) = c := by
  have h : c.toNat < 1114112 := by
    have := c.valid
    rcases this with h | h
    · have : c.toNat < 55296 := h
      omega
    · exact h.2
  simp only [UInt8.toNat_ofNat']
  have : c.toNat / 65536 % 2 ^ 8 * 65536 + c.toNat / 256 % 256 % 2 ^ 8 * 256 + c.toNat % 256 % 2 ^ 8 = c.toNat := by omega
  rw [this]
  exact Char.ofNat_toNat c

theorem decChars_enc (r : Bytes) : ∀ l, decChars (encChars l ++ r) = some (l, r)
  | [] => rfl
  | c :: l => by
    rw [encChars]
    simp only [List.cons_append]
    rw [decChars]
    · rw [decChars_enc r l, char_bytes]; rfl
    · intro h; simp at h

/-- Frequent texts get a number. -/
def names : List String := ["A", "B", "call_obj", "set_item", "get_item", "close", "ping", "auto", "proxy", "msgpack", "json", "obj", "args",
  "kwargs", "name", "x"]
def idx (s : String) : List String → Option Nat
  | [] => none
  | a :: l => if a = s then some 0 else (idx s l).map (· + 1)

theorem idx_spec {s : String} : ∀ {l : List String} {i}, idx s l = some i → l[i]? = some s ∧ i < l.length
  | [], i, h => by simp [idx] at h
  | a :: l, i, h => by
    simp only [idx] at h
    split at h
    · rename_i ha
      simp only [Option.some.injEq] at h; subst h
      simp [ha]
    · obtain ⟨j, hj, rfl⟩ := Option.map_eq_some_iff.1 h
      have := idx_spec hj
      simp [this.1]; exact this.2

def encText (s : String) : Bytes :=
  match idx s names with
  | some i => [.ofNat (i + 1)]
  | none => 0 :: encChars s.toList
def decText : Bytes → Option (String × Bytes)
  | [] => none
  | b :: r => if b = 0 then (decChars r).map fun p => (String.ofList p.1, p.2) else (names[b.toNat - 1]?).map fun s => (s, r)

theorem decText_enc (r : Bytes) (s : String) : decText (encText s ++ r) = some (s, r) := by
  unfold encText
  split
  · rename_i i hi
    obtain ⟨h1, h2⟩ := idx_spec hi
    have hl : names.length = 16 := rfl
    have h3 : (UInt8.ofNat (i + 1)).toNat = i + 1 := by rw [UInt8.toNat_ofNat']; omega
    have h4 : UInt8.ofNat (i + 1) ≠ 0 := by
      intro h
      have := congrArg UInt8.toNat h
      rw [h3] at this
      simp at this
    simp only [List.singleton_append, decText, h3, Nat.add_sub_cancel, h1, if_neg h4, Option.map_some]
  · simp [decText, decChars_enc]

mutual
def encW : Wire → Bytes
  | .nil => [0]
  | .bool b => [1, if b then 1 else 0]
  | .int i => 2 :: encInt i
  | .float n => 3 :: encNat n
  | .str s => 4 :: encText s
  | .bin b => 5 :: encBytes b
  | .arr l => 6 :: encL l
  | .map m => 7 :: encM m
def encL : List Wire → Bytes
  | [] => [0]
  | w :: l => 1 :: (encW w ++ encL l)
def encM : List (Wire × Wire) → Bytes
  | [] => [0]
  | (a, b) :: l => 1 :: (encW a ++ (encW b ++ encM l))
end

mutual
def decW : Nat → Bytes → Option (Wire × Bytes)
  | n + 1, t :: r =>
    if t = 0 then some (.nil, r)
    else if t = 1 then match r with
      | b :: r => some (.bool (b = 1), r)
      | [] => none
    else if t = 2 then (decInt r).map fun p => (.int p.1, p.2)
    else if t = 3 then (decNat r).map fun p => (.float p.1, p.2)
    else if t = 4 then (decText r).map fun p => (.str p.1, p.2)
    else if t = 5 then (decBytes r).map fun p => (.bin p.1, p.2)
    else if t = 6 then (decL n r).map fun p => (.arr p.1, p.2)
    else (decM n r).map fun p => (.map p.1, p.2)
  | _, _ => none
def decL : Nat → Bytes → Option (List Wire × Bytes)
  | n + 1, t :: r =>
    if t = 0 then some ([], r)
    else match decW n r with
      | none => none
      | some (w, r) => (decL n r).map fun p => (w :: p.1, p.2)
  | _, _ => none
def decM : Nat → Bytes → Option (List (Wire × Wire) × Bytes)
  | n + 1, t :: r =>
    if t = 0 then some ([], r)
    else match decW n r with
      | none => none
      | some (a, r) => match decW n r with
        | none => none
        | some (b, r) => (decM n r).map fun p => ((a, b) :: p.1, p.2)
  | _, _ => none
end

mutual
theorem decW_enc : ∀ (w : Wire) (n : Nat) (r : Bytes), (encW w).length ≤ n → decW n (encW w ++ r) = some (w, r)
  | w, 0, r, h => by cases w <;> simp [encW] at h
  | .nil, n + 1, r, _ => by simp [encW, decW]
  | .bool b, n + 1, r, _ => by cases b <;> simp [encW, decW]
  | .int i, n + 1, r, _ => by simp [encW, decW, decInt_enc]
  | .float b, n + 1, r, _ => by simp [encW, decW, decNat_enc]
  | .str s, n + 1, r, _ => by simp [encW, decW, decText_enc]
  | .bin b, n + 1, r, _ => by simp [encW, decW, decBytes_enc]
  | .arr l, n + 1, r, h => by
    simp only [encW, List.length_cons] at h
    simp [encW, decW, decL_enc l n r (by omega)]
  | .map l, n + 1, r, h => by
    simp only [encW, List.length_cons] at h
    simp [encW, decW, decM_enc l n r (by omega)]
theorem decL_enc : ∀ (l : List Wire) (n : Nat) (r : Bytes), (encL l).length ≤ n → decL n (encL l ++ r) = some (l, r)
  | l, 0, r, h => by cases l <;> simp [encL] at h
  | [], n + 1, r, _ => by simp [encL, decL]
  | w :: l, n + 1, r, h => by
    simp only [encL, List.length_cons, List.length_append] at h
    simp [encL, decL, List.append_assoc, decW_enc w n _ (by omega), decL_enc l n r (by omega)]
theorem decM_enc : ∀ (l : List (Wire × Wire)) (n : Nat) (r : Bytes), (encM l).length ≤ n → decM n (encM l ++ r) = some (l, r)
  | l, 0, r, h => by cases l <;> simp [encM] at h
  | [], n + 1, r, _ => by simp [encM, decM]
  | (a, b) :: l, n + 1, r, h => by
    simp only [encM, List.length_cons, List.length_append] at h
    simp [encM, decM, List.append_assoc, decW_enc a n _ (by omega), decW_enc b n _ (by omega), decM_enc l n r (by omega)]
end

/-- The encodings. -/
def codec2 : Codec where
  text := encText
  num := encInt
  tree _ := encW

/-- The server's process, reading these encodings. -/
def heap2 : Heap :=
  { heap with
    utf8 := fun b => (decText b).bind fun p => if p.2 = [] then some p.1 else none
    intOf := fun b => (decInt b).bind fun p => if p.2 = [] then some p.1 else none
    parse := fun _ b => match decW b.length b with
      | some (w, []) => .ok w
      | _ => .error .valueError }

theorem fits2 : Fits codec2 heap2 where
  num i := by have := decInt_enc [] i; simp at this; simp [codec2, heap2, this]
  text s := by have := decText_enc [] s; simp at this; simp [codec2, heap2, this]
  tree ser w _ := by
    refine ⟨by cases w <;> simp [codec2, encW], ?_⟩
    have := decW_enc w (encW w).length [] (Nat.le_refl _)
    simp at this
    simp [codec2, heap2, this]

theorem liveHeap2 (t : Refs) : LiveHeap heap2 t where
  sent u u' h := Nat.add_right_cancel h
  held _ _ _ _ u h := Nat.add_right_cancel h

theorem liveRun2 : ∀ (es : List Ev) (s : Srv), (∀ e ∈ es, e.heap = heap2) → LiveRun heap2.idOf s es
  | [], _, _ => trivial
  | e :: es, s, h => by
    refine ⟨by rw [h e List.mem_cons_self], by rw [h e List.mem_cons_self]; exact liveHeap2 _, ?_⟩
    exact liveRun2 es _ fun e he => h e (List.mem_cons_of_mem _ he)

/-- The clients: `nA` uses msgpack, all others JSON. -/
def nA : Bytes := codec2.text "A"
def nB : Bytes := codec2.text "B"
def sers2 (n : Bytes) : Ser := if n = nA then .msgpack else .json
def sys : Sys := Sys.init srv sers2

/-- a request -/
def req (n : Bytes) (r : Request) (rt sync : String) : SEv := .request n csend Refs.init r.1 r.2 rt sync
def rd (n : Bytes) : SEv := .deliver n cenv .nil

/-- the options of the requests are small enough -/
def smallEvs (es : List SEv) : Bool := es.all fun e => match e with
  | .request n E t _ (some o) _ _ => (match ((sers2 n).dumps E t o).2 with
    | .ok w => w.all (sers2 n).smallItem
    | .error _ => true)
  | _ => true

/-- any run in this process and with these clients meets `World`, if its requests are small enough -/
theorem world2 {es : List SEv} (h1 : ∀ e ∈ es, ∀ H, e.heap? = some H → H = heap2) (h2 : ∀ n P junk, SEv.deliver n P junk ∈ es → P = cenv)
    (h3 : smallEvs es = true := by decide +kernel) :
    World codec2 lib heap2.idOf srv sers2 es where
  laws := laws
  types := fun ty h => h
  fits e he H hH := by rw [h1 e he H hH]; exact fits2
  lib e he H hH := by rw [h1 e he H hH]; rfl
  read n P junk h := by rw [h2 n P junk h]; exact ⟨rfl, by simp [cenv]⟩
  live := by
    apply liveRun2
    intro e he
    obtain ⟨se, h3, h4⟩ := srvHist_heap he
    exact h1 se h3 _ h4
  small n E t a o rt sy w he hd := by
    have := List.all_eq_true.1 h3 _ he
    simp only [hd] at this
    exact this

/-- A calls something that runs while B publishes and reads a name; A's call raises an exception of B's making. Then A asks
for the published value by proxy. -/
def evs : List SEv :=
  [req nA (callObjReq (.int 5) (.list [.int 1]) (.dict [])) "auto" "async", .serve nA heap2,
   req nB (setItemReq (.str "x") (.list [.int 7])) "auto" "off", req nB (getItemReq (.str "x")) "auto" "sync",
   .serve nB heap2, .serve nB heap2, rd nB,
   .ret heap2 (.error .attributeError), rd nA,
   req nA (getItemReq (.str "x")) "proxy" "sync", .serve nA heap2, rd nA]

/-- C34: the circumstances can be met. -/
theorem world_evs : World codec2 lib heap2.idOf srv sers2 evs :=
  world2 (by simp [evs, req, rd, SEv.heap?]) (by simp only [evs, req, rd, List.mem_cons, List.not_mem_nil, reduceCtorEq, false_or, or_false, SEv.deliver.injEq]; rintro n P j (h | h | h) <;> exact h.2.1)

/-- C34: the futures hold an exception, a value and a proxy. -/
example : (match ((sys.run codec2 evs).cli nA).fut 0 with
    | some (.remote (.str "AttributeError") (.list [.str "Error while processing request A [0]: ", .str "Stack", .str " < exception caught here >\n", .str "Traceback"])) => true
    | _ => false) = true := by decide +kernel
example : (match ((sys.run codec2 evs).cli nB).fut 0 with
    | some (.value (.list [.int 7])) => true
    | _ => false) = true := by decide +kernel
example : (match ((sys.run codec2 evs).cli nA).fut 1 with
    | some (.value (.proxy p)) => decide (p.addr = "tcp://a:1")
    | _ => false) = true := by decide +kernel

/-- C35: the started requests of both. -/
example : started nB (sys.outs codec2 evs) = [(-1, "set_item", "json"), (0, "get_item", "json")] ∧
    started nA (sys.outs codec2 evs) = [(0, "call_obj", "msgpack"), (1, "get_item", "msgpack")] ∧
    (sys.asked codec2 evs nB).map Asked.brief = [(-1, "set_item", "json"), (0, "get_item", "json")] := by decide +kernel

/-- C35: a message lost on the way leaves a gap, so the second theorem needs its hypothesis. -/
example : let es := [req nB pingReq "auto" "async", .loseUp nB 0, req nB pingReq "auto" "async", .serve nB heap2]
    started nB (sys.outs codec2 es) = [(1, "ping", "json")] := by decide +kernel

/-! ## The theorems on these cases -/

/-- B's future is answered. -/
theorem evs_answered : ∃ f, (((Sys.init (Srv.init "tcp://a:1" [] self) sers2).run codec2 evs).cli nB).fut 0 = some f ∧ f.answered := by
  have h : (match (((Sys.init (Srv.init "tcp://a:1" [] self) sers2).run codec2 evs).cli nB).fut 0 with | some (.value _) => true | _ => false) = true := by decide +kernel
  split at h
  · rename_i v hv; exact ⟨_, hv, by simp [Fut.answered]⟩
  · cases h
example := C34_result world_evs evs_answered.choose_spec.1 evs_answered.choose_spec.2
/-- A request without options, and one with. -/
example := C34_options fits2 srv nA ⟨3, "ping", "auto", .json, none⟩ (by simp)
example := C34_options fits2 srv nA ⟨3, "get_item", "auto", .json, some (.map [(.str "name", .str "x")])⟩
  (by intro w h; simp only [Option.some.injEq] at h; subst h; simp only [Ser.Writable, Ser.Small]; decide +kernel)
example := C34_never_twice (addr := "tcp://a:1") (tys := []) (self := self) (sers := sers2) world_evs.fits nB 0 (by decide)
example := C35_in_order (addr := "tcp://a:1") (tys := []) (self := self) (sers := sers2) world_evs.fits nB
example := C35_no_gaps (addr := "tcp://a:1") (tys := []) (self := self) (sers := sers2) world_evs.fits nB (by simp [evs, req, rd])

end Verif.Ex
