import Verif.Proof.OptionalSend
import Verif.Props.Serializer
/-! # Values free of numpy arrive in a process without numpy -/
namespace Verif

/-- The libraries a process without numpy could use with a given reading of pickles: no dtype is known. -/
def Lib.hybrid (L L0 : Lib) : Lib where
  pickleDumps v := if v.npFree then L.pickleDumps v else .error .importError
  pickleLoads := L0.pickleLoads
  dtypeParse _ := .error .typeError
  dtypeExec _ := .error .typeError
  floatRepr := L.floatRepr
  ldToFloat := L.ldToFloat
  ldOfFloat := L.ldOfFloat
  padYear := L.padYear
  known _ := false

theorem hybrid_laws {L L0 : Lib} (hl : L.Laws) (hb : Bare L L0) : (L.hybrid L0).Laws where
  pickle v b h := by
    simp only [Lib.hybrid] at h ⊢
    split at h
    · rename_i hf; rw [hb.reads b v (hl.pickle v b h), if_pos hf]
    · cases h
  pickleInt i := by
    obtain ⟨b, h⟩ := hl.pickleInt i
    exact ⟨b, by simp [Lib.hybrid, Val.npFree, h]⟩
  dtypePickles d h := by simp [Lib.hybrid] at h
  parse d h := by simp [Lib.hybrid] at h
  exec d h := by simp [Lib.hybrid] at h
  noParse n _ := rfl

theorem hybrid_bare {L L0 : Lib} (hb : Bare L L0) : Bare L (L.hybrid L0) where
  reads := hb.reads
  only := hb.only
  dumps v h := by simp [Lib.hybrid, h]
  floats := rfl
  longs := rfl
  years := rfl

theorem hybrid_self {L L0 : Lib} (hb : Bare L L0) : Bare (L.hybrid L0) (L.hybrid L0) where
  reads b v h := by
    have h1 := hb.reads b v (hb.only b v h)
    have h : L0.pickleLoads b = .ok v := h
    rw [h] at h1
    change L0.pickleLoads b = _
    rw [h]; exact h1
  only b v h := h
  dumps v h := rfl
  floats := rfl
  longs := rfl
  years := rfl

/-- The sender and the receiver with the hybrid libraries. -/
def SendEnv.hybrid (E : SendEnv) (L0 : Lib) : SendEnv := { E with lib := E.lib.hybrid L0 }
/-- See `SendEnv.hybrid`. -/
def RecvEnv.hybrid (R : RecvEnv) (L0 : Lib) : RecvEnv := { R with lib := R.lib.hybrid L0 }

theorem pack_hybrid {E : SendEnv} {L0 : Lib} (hb : Bare E.lib L0) (n : Nat) (t : Refs) {v : Val} (hv : v.npFree = true) :
    pack (E.hybrid L0) n t v = pack E n t v := by
  have h1 : BareSend E (E.hybrid L0) :=
    ⟨hybrid_bare hb, rfl, rfl, rfl, rfl, fun _ h => h, fun _ h _ => h⟩
  have h2 : BareSend (E.hybrid L0) (E.hybrid L0) :=
    ⟨hybrid_self hb, rfl, rfl, rfl, rfl, fun _ h => h, fun _ h _ => h⟩
  rw [← pack_bare h1 n t v hv, pack_bare h2 n t v hv]

theorem jpack_hybrid {E : SendEnv} {L0 : Lib} (hb : Bare E.lib L0) (n : Nat) (t : Refs) {v : Val} (hv : v.npFree = true) :
    jpack (E.hybrid L0) n t v = jpack E n t v := by
  have h1 : BareSend E (E.hybrid L0) :=
    ⟨hybrid_bare hb, rfl, rfl, rfl, rfl, fun _ h => h, fun _ h _ => h⟩
  have h2 : BareSend (E.hybrid L0) (E.hybrid L0) :=
    ⟨hybrid_self hb, rfl, rfl, rfl, rfl, fun _ h => h, fun _ h _ => h⟩
  rw [← jpack_bare h1 n t v hv, jpack_bare h2 n t v hv]

mutual
theorem sendable_hybrid {R : RecvEnv} {L0 : Lib} : ∀ v : Val, v.npFree = true → Sendable R v → Sendable (R.hybrid L0) v
  | .list l, hv, h => by simp only [Sendable] at h ⊢; exact sendableL_hybrid l hv h
  | .tuple l, hv, h => by simp only [Sendable] at h ⊢; exact sendableL_hybrid l hv h
  | .dict d, hv, h => by simp only [Sendable] at h ⊢; exact ⟨h.1, sendableD_hybrid d hv h.2⟩
  | .sub c v, hv, h => by simp only [Sendable] at h ⊢; exact fun hf => sendable_hybrid v hv (h hf)
  | .ndarray _, hv, _ | .npScalar _, hv, _ => by simp [Val.npFree] at hv
  | .datetime _, _, h | .date _, _, h | .proxy _, _, h => h
  | .none, _, _ | .bool _, _, _ | .int _, _, _ | .float _, _, _ | .str _, _, _ | .bytes _, _, _ | .dtype _, _, _
  | .obj _ _, _, _ => trivial
theorem sendableL_hybrid {R : RecvEnv} {L0 : Lib} : ∀ l, npFreeL l = true → SendableL R l → SendableL (R.hybrid L0) l
  | [], _, _ => trivial
  | v :: vs, hv, h => by
    simp only [npFreeL, Bool.and_eq_true] at hv
    exact ⟨sendable_hybrid v hv.1 h.1, sendableL_hybrid vs hv.2 h.2⟩
theorem sendableD_hybrid {R : RecvEnv} {L0 : Lib} : ∀ d, npFreeD d = true → SendableD R d → SendableD (R.hybrid L0) d
  | [], _, _ => trivial
  | (k, v) :: vs, hv, h => by
    simp only [npFreeD, Bool.and_eq_true] at hv
    exact ⟨sendable_hybrid v hv.1.2 h.1, sendableD_hybrid vs hv.2 h.2⟩
end

mutual
theorem jsendable_hybrid {R : RecvEnv} {L0 : Lib} : ∀ v : Val, v.npFree = true → JSendable R v → JSendable (R.hybrid L0) v
  | .list l, hv, h => by simp only [JSendable] at h ⊢; exact jsendableL_hybrid l hv h
  | .tuple l, hv, h => by simp only [JSendable] at h ⊢; exact jsendableL_hybrid l hv h
  | .dict d, hv, h => by simp only [JSendable] at h ⊢; exact ⟨h.1, jsendableD_hybrid d hv h.2⟩
  | .sub c v, hv, h => by simp only [JSendable] at h ⊢; exact fun hf => jsendable_hybrid v hv (h hf)
  | .ndarray _, hv, _ | .npScalar _, hv, _ => by simp [Val.npFree] at hv
  | .datetime _, _, h | .date _, _, h | .proxy _, _, h => h
  | .none, _, _ | .bool _, _, _ | .int _, _, _ | .float _, _, _ | .str _, _, _ | .bytes _, _, _ | .dtype _, _, _
  | .obj _ _, _, _ => trivial
theorem jsendableL_hybrid {R : RecvEnv} {L0 : Lib} : ∀ l, npFreeL l = true → JSendableL R l → JSendableL (R.hybrid L0) l
  | [], _, _ => trivial
  | v :: vs, hv, h => by
    simp only [npFreeL, Bool.and_eq_true] at hv
    exact ⟨jsendable_hybrid v hv.1 h.1, jsendableL_hybrid vs hv.2 h.2⟩
theorem jsendableD_hybrid {R : RecvEnv} {L0 : Lib} : ∀ d, npFreeD d = true → JSendableD R d → JSendableD (R.hybrid L0) d
  | [], _, _ => trivial
  | (k, v) :: vs, hv, h => by
    simp only [npFreeD, Bool.and_eq_true] at hv
    exact ⟨jsendable_hybrid v hv.1.2 h.1, jsendableD_hybrid vs hv.2 h.2⟩
end

/-- What one reader gives, the other gives too. -/
def Gives {α : Type} (x y : Except Exc α) : Prop := ∀ v, x = .ok v → y = .ok v

theorem gives_bind {α β : Type} {x y : Except Exc α} {f g : α → Except Exc β} (hx : Gives x y)
    (hf : ∀ a, Gives (f a) (g a)) : Gives (x.bind f) (y.bind g) := by
  intro v h
  obtain ⟨a, h1, h2⟩ := exbind_ok h
  rw [hx a h1]; exact hf a v h2

theorem buildArray_error {data : Except Exc Bytes} {e : Exc} {s : Option Val} : buildArray data (.error e) s = .error e := rfl

theorem decode_hybrid {R R0 : RecvEnv} (hr : BareRecv R R0) (d : List (Val × Val)) :
    Gives (decode (R.hybrid R0.lib) d) (decodeIf false R0 d) := by
  intro v h
  by_cases hn : (lookupStr d encodeKey).bind Val.text? = some "ndarray"
  · exfalso
    unfold decode at h
    cases h1 : lookupStr d encodeKey with
    | none => rw [h1] at hn; cases hn
    | some tn =>
      rw [h1] at hn h
      simp only [Option.bind_some] at hn
      cases tn
      case none => cases hn
      case proxy => cases hn
      all_goals
        simp only [hn] at h
        unfold decodeArray at h
        split at h
        · cases h
        · split at h
          · cases h
          · simp only [RecvEnv.hybrid, Lib.hybrid, ite_self, buildArray_error] at h
            cases h
        · cases h
        · cases h
  · have h0 : decodeIf false R0 d = decode R0 d := by unfold decodeIf; split <;> simp_all
    rw [h0]
    have hb : BareRecv (R.hybrid R0.lib) R0 := by
      refine ⟨⟨?_, fun _ _ h => h, ?_, hr.lib.floats, hr.lib.longs, hr.lib.years⟩, hr.server⟩
      · intro b v h1
        exact (hybrid_self hr.lib).reads b v h1
      · intro v hv; simp only [RecvEnv.hybrid, Lib.hybrid, hv, if_true]; exact hr.lib.dumps v hv
    rcases (decode_soi hb d hn).1 v h with h1 | h1
    · exact h1
    · exfalso
      have hb2 : BareRecv R0 (R.hybrid R0.lib) := by
        refine ⟨⟨?_, fun _ _ h => h, ?_, hr.lib.floats.symm, hr.lib.longs.symm, hr.lib.years.symm⟩, hr.server.symm⟩
        · exact (hybrid_self hr.lib).reads
        · intro v hv; simp only [RecvEnv.hybrid, Lib.hybrid, hv, if_true]; exact (hr.lib.dumps v hv).symm
      have hs := decode_soi hb2 d hn
      have h2 := hs.2 v h
      rw [h1] at h2; cases h2

theorem jdecode_hybrid {R R0 : RecvEnv} (hr : BareRecv R R0) (d : List (Val × Val)) :
    Gives (jdecode (R.hybrid R0.lib) d) (jdecodeIf false R0 d) := by
  intro v h
  by_cases hn : (lookupStr d encodeKey).bind Val.text? = some "ndarray"
  · exfalso
    unfold jdecode at h
    rw [hn] at h
    simp only at h
    repeat' split at h
    all_goals first | cases h | skip
    have ha : ∀ x, dtypeArg (R.hybrid R0.lib).lib x = .error .typeError := by intro x; cases x <;> rfl
    simp only [ha, buildArray_error] at h
    cases h
  · have h0 : jdecodeIf false R0 d = jdecode R0 d := by unfold jdecodeIf; split <;> simp_all
    have h2 : decodeIf false R0 d = decode R0 d := by unfold decodeIf; split <;> simp_all
    rw [h0]
    unfold jdecode at h ⊢
    split at h
    · rename_i h1; exact absurd h1 hn
    · exact h
    · rename_i h3 h4
      rw [← h2]; exact decode_hybrid hr d v h

mutual
theorem unpack_hybrid {R R0 : RecvEnv} (hr : BareRecv R R0) : ∀ w, Gives (unpack (R.hybrid R0.lib) w) (unpackIf false R0 w)
  | .nil | .bool _ | .int _ | .float _ | .str _ | .bin _ => fun _ h => h
  | .arr l => by
    rw [unpack_arr_bind, unpackIf_arr_bind]
    exact gives_bind (unpackL_hybrid hr l) (fun a _ h => h)
  | .map m => by
    rw [unpack_map_bind, unpackIf_map_bind]
    exact gives_bind (unpackM_hybrid hr m) (fun a => decode_hybrid hr _)
theorem unpackL_hybrid {R R0 : RecvEnv} (hr : BareRecv R R0) : ∀ l, Gives (unpackL (R.hybrid R0.lib) l) (unpackIfL false R0 l)
  | [] => fun _ h => h
  | w :: ws => by
    rw [unpackL_bind, unpackIfL_bind]
    exact gives_bind (unpack_hybrid hr w) (fun a => gives_bind (unpackL_hybrid hr ws) (fun _ _ h => h))
theorem unpackM_hybrid {R R0 : RecvEnv} (hr : BareRecv R R0) : ∀ m, Gives (unpackM (R.hybrid R0.lib) m) (unpackIfM false R0 m)
  | [] => fun _ h => h
  | (k, w) :: r => by
    rw [unpackM_bind, unpackIfM_bind]
    refine gives_bind (unpack_hybrid hr k) (fun a => ?_)
    split
    · exact fun _ h => h
    · exact gives_bind (unpack_hybrid hr w) (fun b => gives_bind (unpackM_hybrid hr r) (fun _ _ h => h))
end

mutual
theorem junpack_hybrid {R R0 : RecvEnv} (hr : BareRecv R R0) : ∀ w, Gives (junpack (R.hybrid R0.lib) w) (junpackIf false R0 w)
  | .nil | .bool _ | .int _ | .float _ | .str _ | .bin _ => fun _ h => h
  | .arr l => by
    rw [junpack_arr_bind, junpackIf_arr_bind]
    exact gives_bind (junpackL_hybrid hr l) (fun a _ h => h)
  | .map m => by
    rw [junpack_map_bind, junpackIf_map_bind]
    exact gives_bind (junpackM_hybrid hr m) (fun a => jdecode_hybrid hr _)
theorem junpackL_hybrid {R R0 : RecvEnv} (hr : BareRecv R R0) : ∀ l, Gives (junpackL (R.hybrid R0.lib) l) (junpackIfL false R0 l)
  | [] => fun _ h => h
  | w :: ws => by
    rw [junpackL_bind, junpackIfL_bind]
    exact gives_bind (junpack_hybrid hr w) (fun a => gives_bind (junpackL_hybrid hr ws) (fun _ _ h => h))
theorem junpackM_hybrid {R R0 : RecvEnv} (hr : BareRecv R R0) : ∀ m, Gives (junpackM (R.hybrid R0.lib) m) (junpackIfM false R0 m)
  | [] => fun _ h => h
  | (k, w) :: r => by
    cases k with
    | str k =>
      rw [junpackM_bind, junpackIfM_bind]
      exact gives_bind (junpack_hybrid hr w) (fun b => gives_bind (junpackM_hybrid hr r) (fun _ _ h => h))
    | _ => simp only [junpackM, junpackIfM]; exact fun _ h => h
end

end Verif
