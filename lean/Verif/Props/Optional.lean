import Verif.Proof.OptionalTransport
/-!
# C127: processes without numpy or msgpack

`R`/`E` are the ends of a connection in processes that have numpy, `R0`/`E0` the same ends in processes that have not
(`BareRecv`, `BareSend`).
-/
namespace Verif
open Ex

/-- Without numpy. -/
def Ex.bareLib : Lib where
  pickleDumps v := if v.npFree then lib.pickleDumps v else .error .importError
  pickleLoads b := match lib.pickleLoads b with
    | .ok v => if v.npFree then .ok v else .error .importError
    | .error e => .error e
  dtypeParse _ := .error .importError
  dtypeExec _ := .error .importError
  floatRepr := lib.floatRepr
  ldToFloat := lib.ldToFloat
  ldOfFloat := lib.ldOfFloat
  padYear := lib.padYear
  known _ := false

theorem Ex.bare : Bare lib bareLib where
  reads b v h := by simp only [bareLib, h]
  only b v h := by
    simp only [bareLib] at h
    split at h
    · split at h
      · rename_i h1 _; cases h; exact h1
      · cases h
    · cases h
  dumps v h := by simp only [bareLib, h, if_true]
  floats := rfl
  longs := rfl
  years := rfl

/-- B without numpy. -/
def Ex.recvB0 : RecvEnv := { recvB with lib := bareLib }
/-- A without numpy. -/
def Ex.sendA0 : SendEnv := { sendA with lib := bareLib, tys := defaultTypesIf false }

theorem Ex.bareRecv : BareRecv recvB recvB0 := ⟨bare, rfl⟩

/-! ## The model with numpy is the one used everywhere else -/

theorem encodeValueIf_true (L : Lib) (v : Val) : encodeValueIf true L v = encodeValue L v := by
  unfold encodeValueIf; split <;> rfl

theorem encodeIf_true (E : SendEnv) (t : Refs) (v : Val) : encodeIf true E t v = encode E t v := by
  unfold encodeIf encode; simp only [encodeValueIf_true]; rfl

theorem jencodeIf_true (E : SendEnv) (t : Refs) (v : Val) : jencodeIf true E t v = jencode E t v := by
  unfold jencodeIf jencode
  cases v.core <;> simp only [encodeIf_true, if_true]

theorem packIf_true (E : SendEnv) : ∀ n t v, packIf true E n t v = pack E n t v := by
  intro n
  induction n with
  | zero => intro t v; rfl
  | succ n ih =>
    intro t v
    have : packIf true E n = pack E n := by funext t v; exact ih t v
    cases v <;> simp only [packIf, pack, this, encodeIf_true] <;> rfl

theorem jpackIf_true (E : SendEnv) : ∀ n t v, jpackIf true E n t v = jpack E n t v := by
  intro n
  induction n with
  | zero => intro t v; rfl
  | succ n ih =>
    intro t v
    have : jpackIf true E n = jpack E n := by funext t v; exact ih t v
    cases h : v.core <;> simp only [jpackIf, jpack, h, this, jencodeIf_true] <;> rfl

/-- **C127.** With numpy installed the guarded code is the code of C17 and C18. -/
theorem C127_with_numpy (E : SendEnv) (R : RecvEnv) (t : Refs) (v : Val) (w : Wire) :
    msgpackDumpsIf true E t v = msgpackDumps E t v ∧ jsonDumpsIf true E t v = jsonDumps E t v ∧
    msgpackLoadsIf true R w = msgpackLoads R w ∧ jsonLoadsIf true R w = jsonLoads R w ∧
    defaultTypesIf true = defaultTypes :=
  ⟨packIf_true _ _ _ _, jpackIf_true _ _ _ _, unpackIf_true _ _, junpackIf_true _ _, rfl⟩

/-! ## Reading -/

/-- **C127.** Whatever message arrives: where a process with numpy reads a value, one without numpy reads the same
value or raises `ImportError`; and it never reads a value the other would not read. -/
theorem C127_never_another {R R0 : RecvEnv} (hr : BareRecv R R0) (w : Wire) :
    SameOrImport (msgpackLoads R w) (msgpackLoadsIf false R0 w) ∧ SameOrImport (jsonLoads R w) (jsonLoadsIf false R0 w) :=
  ⟨unpack_soi hr w, junpack_soi hr w⟩

/-- **C127.** A message whose value contains anything of numpy, at any depth, raises `ImportError` in a process without
numpy: it is not read with the numpy parts missing or replaced. -/
theorem C127_numpy_refused {R R0 : RecvEnv} (hr : BareRecv R R0) (ho : OwnFree R0) (w : Wire) (v : Val)
    (hv : v.npFree = false) :
    (msgpackLoads R w = .ok v → msgpackLoadsIf false R0 w = .error .importError) ∧
    (jsonLoads R w = .ok v → jsonLoadsIf false R0 w = .error .importError) := by
  constructor
  · intro h
    rcases (unpack_soi hr w).1 v h with h1 | h1
    · rw [unpackIf_free hr.lib ho w v h1] at hv; cases hv
    · exact h1
  · intro h
    rcases (junpack_soi hr w).1 v h with h1 | h1
    · rw [junpackIf_free hr.lib ho w v h1] at hv; cases hv
    · exact h1

/-- **C127.** A value without numpy objects sent by a process with numpy arrives in one without numpy just as it arrives
in one with numpy. -/
theorem C127_free_arrives {L E R R0 h t} (hl : Link L E R) (hr : BareRecv R R0) (hh : Reach E.idOf h t) (ha : Alive E h)
    {v t' w} (hv : v.npFree = true) (hs : Sendable R v) (hd : msgpackDumps E t v = (t', .ok w)) :
    ∃ v', msgpackLoadsIf false R0 w = .ok v' ∧ msgpackLoads R w = .ok v' ∧ Arrives E.tys (ByProxy E R t') v v' := by
  have hb : Bare L R0.lib := by rw [← hl.receiver]; exact hr.lib
  have hbE : Bare E.lib R0.lib := by rw [hl.sender]; exact hb
  have hl1 : Link (L.hybrid R0.lib) (E.hybrid R0.lib) (R.hybrid R0.lib) :=
    ⟨hybrid_laws hl.laws hb, by simp only [SendEnv.hybrid, hl.sender], by simp only [RecvEnv.hybrid, hl.receiver], hl.types,
      hl.notOwner⟩
  have hd1 : msgpackDumps (E.hybrid R0.lib) t v = (t', .ok w) := by
    unfold msgpackDumps; rw [pack_hybrid hbE _ t hv]; exact hd
  obtain ⟨v', h1, h2⟩ := C17_msgpack_transport hl1 hh ⟨ha.sent, ha.held⟩ (sendable_hybrid v hv hs) hd1
  have h3 := unpack_hybrid hr w v' h1
  exact ⟨v', h3, (unpack_soi hr w).2 v' h3, h2⟩

/-- **C127.** The same for JSON. -/
theorem C127_free_arrives_json {L E R R0 h t} (hl : Link L E R) (hr : BareRecv R R0) (hh : Reach E.idOf h t)
    (ha : Alive E h) {v t' w} (hv : v.npFree = true) (hs : JSendable R v) (hd : jsonDumps E t v = (t', .ok w)) :
    ∃ v', jsonLoadsIf false R0 w = .ok v' ∧ jsonLoads R w = .ok v' ∧ JArrives L E.tys (ByProxy E R t') v v' := by
  have hb : Bare L R0.lib := by rw [← hl.receiver]; exact hr.lib
  have hbE : Bare E.lib R0.lib := by rw [hl.sender]; exact hb
  have hl1 : Link (L.hybrid R0.lib) (E.hybrid R0.lib) (R.hybrid R0.lib) :=
    ⟨hybrid_laws hl.laws hb, by simp only [SendEnv.hybrid, hl.sender], by simp only [RecvEnv.hybrid, hl.receiver], hl.types,
      hl.notOwner⟩
  have hd1 : jsonDumps (E.hybrid R0.lib) t v = (t', .ok w) := by
    unfold jsonDumps; rw [jpack_hybrid hbE _ t hv]; exact hd
  obtain ⟨v', h1, -⟩ := C18_json_transport hl1 hh ⟨ha.sent, ha.held⟩ (jsendable_hybrid v hv hs) hd1
  have h3 := junpack_hybrid hr w v' h1
  have h4 := (junpack_soi hr w).2 v' h3
  obtain ⟨v2, h5, h6⟩ := C18_json_transport hl hh ha hs hd
  have : v2 = v' := by
    unfold jsonLoads at h5; rw [h4] at h5; cases h5; rfl
  subst this
  exact ⟨v2, h3, h4, h6⟩

/-- **C127.** A float64 scalar, which JSON sends as a plain number, is read without numpy. -/
theorem C127_json_float64 (np : Bool) (E : SendEnv) (R0 : RecvEnv) (t : Refs) (dt : DType) (f : Nat)
    (hk : dt.kind = .floating) (hi : dt.itemsize = 8) :
    ∃ w, jsonDumpsIf np E t (.npScalar ⟨dt, .float f⟩) = (t, .ok w) ∧ jsonLoadsIf false R0 w = .ok (.float f) := by
  refine ⟨.float f, ?_, rfl⟩
  have : ∀ n, jpackIf np E (n + 1) t (.npScalar ⟨dt, .float f⟩) = (t, .ok (.float f)) := by
    intro n; simp only [jpackIf, Val.core, hk, hi]
  exact this _

/-! ## Sending -/

/-- **C127.** A process without numpy sends the very message a process with numpy sends, and hands out the same
references. -/
theorem C127_sent {E E0 : SendEnv} (hb : BareSend E E0) (t : Refs) (v : Val) (hv : v.npFree = true) :
    msgpackDumpsIf false E0 t v = msgpackDumps E t v ∧ jsonDumpsIf false E0 t v = jsonDumps E t v :=
  ⟨pack_bare hb _ t v hv, jpack_bare hb _ t v hv⟩

/-- **C127.** A server has all serializers it was to make, under their names, or is not made. -/
theorem C127_server_all (P : Packages) : ∀ (l : List (String × Ser)) (d : Dict String Ser), serverSerializers P l = .ok d →
    d = l ∧ ∀ e ∈ l, e.2 = .msgpack → P.msgpack = true
  | [], d, h => by simp only [serverSerializers, Except.ok.injEq] at h; subst h; simp
  | (n, c) :: l, d, h => by
    simp only [serverSerializers] at h
    cases hc : c.create P with
    | error e => rw [hc] at h; cases h
    | ok s =>
      rw [hc] at h
      cases hl : serverSerializers P l with
      | error e => simp only [hl] at h; cases h
      | ok d' =>
        simp only [hl, Except.ok.injEq] at h
        obtain ⟨h1, h2⟩ := C127_server_all P l d' hl
        have hs : s = c ∧ (c = .msgpack → P.msgpack = true) := by
          cases c <;> simp only [Ser.create] at hc
          · split at hc
            · rename_i hp; cases hc; exact ⟨rfl, fun _ => hp⟩
            · cases hc
          · cases hc; exact ⟨rfl, nofun⟩
        refine ⟨by rw [← h, h1, hs.1], fun e he => ?_⟩
        rcases List.mem_cons.1 he with rfl | he
        · exact hs.2
        · exact h2 e he

example : serverSerializers ⟨true, true⟩ (allSerializers ⟨true, true⟩) = .ok [("msgpack", .msgpack), ("json", .json)] := rfl

/-- **C127.** So what it sends arrives, with numpy or without at the other end. -/
theorem C127_sent_arrives {L E E0 R R0 h t} (hl : Link L E R) (hb : BareSend E E0) (hr : BareRecv R R0)
    (hh : Reach E.idOf h t) (ha : Alive E h) {v t' w} (hv : v.npFree = true) (hs : Sendable R v)
    (hd : msgpackDumpsIf false E0 t v = (t', .ok w)) :
    ∃ v', msgpackLoads R w = .ok v' ∧ msgpackLoadsIf false R0 w = .ok v' ∧ Arrives E.tys (ByProxy E R t') v v' := by
  rw [(C127_sent hb t v hv).1] at hd
  obtain ⟨v', h1, h2, h3⟩ := C127_free_arrives hl hr hh ha hv hs hd
  exact ⟨v', h2, h1, h3⟩

/-- **C127.** The default serialize types of two processes that differ in numpy are related as `BareSend` asks. -/
theorem C127_default_types :
    (∀ ty ∈ defaultTypesIf false, ty ∈ defaultTypesIf true) ∧
    (∀ ty ∈ defaultTypesIf true, ty.needsNumpy = false → ty ∈ defaultTypesIf false) := by
  decide

/-! ## Which serializers there are -/

/-- **C127.** Creating a server never fails for lack of a package; it then has a serializer for exactly the registered
names. -/
theorem C127_server (P : Packages) :
    ∃ d, serverSerializers P (allSerializers P) = .ok d ∧
      ∀ name, (∃ s, d.get? name = some s) ↔ name = "json" ∨ (name = "msgpack" ∧ P.msgpack = true) := by
  obtain ⟨np, mp⟩ := P
  cases mp
  · refine ⟨[("json", .json)], rfl, fun name => ?_⟩
    simp only [Dict.get?]
    by_cases h : "json" = name
    · subst h; simp
    · simp [h, Ne.symm h]
  · refine ⟨[("msgpack", .msgpack), ("json", .json)], rfl, fun name => ?_⟩
    simp only [Dict.get?]
    by_cases h : "msgpack" = name
    · subst h; simp
    · by_cases h2 : "json" = name
      · subst h2; simp
      · simp [h, h2, Ne.symm h, Ne.symm h2]

theorem clientSerializer_eq (P : Packages) (name : String) :
    clientSerializer P name = if name = "json" then .ok .json
      else if name = "msgpack" ∧ P.msgpack = true then .ok .msgpack else .error .valueError := by
  obtain ⟨np, mp⟩ := P
  by_cases h : name = "json"
  · subst h; cases mp <;> rfl
  · by_cases h2 : name = "msgpack"
    · subst h2; cases mp <;> rfl
    · rw [if_neg h, if_neg (fun hc => h2 hc.1)]
      cases mp <;> simp [clientSerializer, allSerializers, Ne.symm h, Ne.symm h2]

/-- **C127.** A client that could be created with a serializer finds the same one at the server, provided the name is
'json' or the server has msgpack (its requests are answered with `ValueError` otherwise); a client that asks for anything else than 'json', or 'msgpack' where it is installed,
is not created (`ValueError`). -/
theorem C127_client (P Q : Packages) (name : String) :
    (clientSerializer P name = .error .valueError ∨ ∃ s, clientSerializer P name = .ok s) ∧
    ((∃ s, clientSerializer P name = .ok s) ↔ name = "json" ∨ (name = "msgpack" ∧ P.msgpack = true)) ∧
    ∀ s, clientSerializer P name = .ok s → ∀ d, serverSerializers Q (allSerializers Q) = .ok d →
      (requestSerializer d name = .ok s ↔ name = "json" ∨ Q.msgpack = true) ∧
      (¬ (name = "json" ∨ Q.msgpack = true) → requestSerializer d name = .error .valueError) := by
  rw [clientSerializer_eq]
  by_cases h : name = "json"
  · subst h
    refine ⟨.inr ⟨_, rfl⟩, by simp, ?_⟩
    intro s hs d hd
    simp only [if_true, Except.ok.injEq] at hs; subst hs
    obtain ⟨np, mp⟩ := Q
    cases mp <;> cases hd <;> simp [requestSerializer, Dict.get?]
  · rw [if_neg h]
    by_cases h2 : name = "msgpack" ∧ P.msgpack = true
    · rw [if_pos h2]
      refine ⟨.inr ⟨_, rfl⟩, by simp [h2], ?_⟩
      intro s hs d hd
      simp only [Except.ok.injEq] at hs; subst hs
      obtain ⟨h2, -⟩ := h2
      subst h2
      obtain ⟨np, mp⟩ := Q
      cases mp <;> cases hd <;> simp [requestSerializer, Dict.get?]
    · rw [if_neg h2]
      refine ⟨.inl rfl, ?_, ?_⟩
      · simp [h, h2]
      · intro s hs; cases hs

/-! ## Examples -/

/-- A message without numpy: nested, with a pickled object, a big integer, a tuple and an object sent by proxy. -/
def exBareVal : Val :=
  .dict [(.str "a", .list [.int (2 ^ 70), .none, .tuple [.bool true, .str "x"]]), (.str "shm", .obj 2 [.sharedMemory]),
    (.str "o", .obj 5 [.user 1]), (.str "t", .datetime ⟨2024, 2, 29, 23, 59, 58, 1, none, false⟩)]

theorem exBareVal_sendable : Sendable recvB exBareVal := by
  simp only [exBareVal, Sendable, SendableD, SendableL, KeysOk]
  refine ⟨⟨by simp [keyOk], by simp [keyEq], by simp [lookupStr, encodeKey]⟩, ?_⟩
  exact ⟨by trivial, trivial, trivial, ⟨by decide, Or.inl (by decide)⟩, trivial⟩

theorem exBareVal_packable : Packable lib sendA.tys exBareVal := by
  simp only [exBareVal, Packable, PackableD, PackableL]
  refine ⟨by simp [keyOk], by trivial, fun _ => ⟨_, rfl⟩, fun h => ?_, trivial, trivial⟩
  simp [Val.isinstance, Val.types, sendA, defaultTypes] at h

theorem bareSendA : BareSend sendA sendA0 :=
  ⟨Ex.bare, rfl, rfl, rfl, rfl, C127_default_types.1, C127_default_types.2⟩

/-- The hypotheses of `C127_sent_arrives` (and of `C127_free_arrives`) can be met. -/
example : ∃ t' w v', msgpackDumpsIf false sendA0 Refs.init exBareVal = (t', .ok w) ∧ msgpackLoads recvB w = .ok v' ∧
    msgpackLoadsIf false recvB0 w = .ok v' := by
  obtain ⟨t', w, hd⟩ := (packT laws linkAB.types 512 Refs.init exBareVal exBareVal_packable
    (by simp [exBareVal, Val.depth, depthD, depthL])).1 (Or.inl (by simp [sendA]))
  have hd0 : msgpackDumpsIf false sendA0 Refs.init exBareVal = (t', .ok w) := by
    rw [(C127_sent bareSendA _ _ rfl).1]; exact hd
  obtain ⟨v', h1, h2, -⟩ := C127_sent_arrives linkAB bareSendA bareRecv .init (alive _ _ rfl) rfl exBareVal_sendable hd0
  exact ⟨t', w, v', hd0, h1, h2⟩

/-- The message of C17's example, which holds a numpy scalar, is refused without numpy. -/
example : ∃ t' w, msgpackDumps sendA Refs.init exVal = (t', .ok w) ∧ msgpackLoads recvB w = .ok exVal ∧
    msgpackLoadsIf false recvB0 w = .error .importError := by
  obtain ⟨t', w, h1, h2⟩ := C17_msgpack_exact linkAB .init (alive _ _ rfl) exVal_sendable exVal_packable exVal_exact
    (by simp [exVal, Val.depth, depthD, depthL]) (Or.inl (by simp [sendA]))
  refine ⟨t', w, h1, h2, (C127_numpy_refused bareRecv ?_ w exVal rfl).1 h2⟩
  intro a u p v hs hu
  simp only [recvB0, recvB, Option.some.injEq, Prod.mk.injEq] at hs
  rw [← hs.2] at hu; cases hu

/-- A message both can read only in part: an array beside a string. -/
example : msgpackLoadsIf false recvB0 (.arr [.str "x", .map [(.str "___type_name___", .str "ndarray"), (.str "data", .bin []),
    (.str "dtype", .str "float64"), (.str "shape", .arr [.int 0])]]) = .error .importError := rfl

/-- Different messages are read alike: `SameOrImport` is not met by always raising. -/
example : msgpackLoadsIf false recvB0 (.arr [.str "x", .map [(.str "___type_name___", .str "none")]]) =
    .ok (.list [.str "x", .none]) := rfl

/-- A server without msgpack refuses the client's default serializer. -/
example : clientSerializer ⟨true, true⟩ "msgpack" = .ok .msgpack ∧
    requestSerializer [("json", .json)] "msgpack" = .error .valueError ∧
    serverSerializers ⟨true, false⟩ (allSerializers ⟨true, false⟩) = .ok [("json", .json)] := by
  refine ⟨rfl, rfl, rfl⟩

namespace Ex

/-! ## The theorems on these cases -/

example := C127_never_another bareRecv (.arr [.str "x", .map [(.str "___type_name___", .str "none")]])
example : ∃ t' w v', msgpackDumps sendA Refs.init exBareVal = (t', .ok w) ∧ msgpackLoadsIf false recvB0 w = .ok v' := by
  obtain ⟨t', w, hd⟩ := (packT laws linkAB.types 512 Refs.init exBareVal exBareVal_packable
    (by simp [exBareVal, Val.depth, depthD, depthL])).1 (Or.inl (by simp [sendA]))
  obtain ⟨v', h, -⟩ := C127_free_arrives linkAB bareRecv .init (alive _ _ rfl) (v := exBareVal) rfl exBareVal_sendable hd
  exact ⟨t', w, v', hd, h⟩
/-- Such a message with JSON. -/
def exBareJ : Val := .dict [(.str "a", .list [.int (2 ^ 70), .none, .tuple [.bool true, .str "x"]]), (.str "b", .bytes [0, 255])]
example : ∃ t' w v', jsonDumps sendA Refs.init exBareJ = (t', .ok w) ∧ jsonLoadsIf false recvB0 w = .ok v' := by
  have hs : JSendable recvB exBareJ := by
    simp only [exBareJ, JSendable, JSendableD, JSendableL]
    refine ⟨⟨?_, ?_⟩, ?_⟩ <;> first | trivial | (simp; exact ⟨⟨_, rfl⟩, _, rfl⟩) | simp [encodeKey, keyEq, lookupStr]
  have hd : jsonDumps sendA Refs.init exBareJ = _ := rfl
  obtain ⟨v', h, -⟩ := C127_free_arrives_json linkAB bareRecv .init (alive _ _ rfl) (v := exBareJ) rfl hs hd
  exact ⟨_, _, v', hd, h⟩
example := fun np => C127_json_float64 np sendA0 recvB0 Refs.init ⟨"float64", 8, .floating, true⟩ 4600000000000000000 rfl rfl

end Ex

end Verif
