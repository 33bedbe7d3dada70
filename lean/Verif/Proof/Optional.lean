import Verif.Spec.Optional
/-! # Reading and writing without numpy -/
namespace Verif

theorem soi_refl {α : Type} (x : Except Exc α) : SameOrImport x x := ⟨fun _ h => .inl h, fun _ h => h⟩

theorem soi_import {α : Type} (x : Except Exc α) : SameOrImport x (.error .importError) :=
  ⟨fun _ _ => .inr rfl, fun _ h => by cases h⟩

theorem soi_pickle {L L0 : Lib} (hb : Bare L L0) (b : Bytes) : SameOrImport (L.pickleLoads b) (L0.pickleLoads b) := by
  refine ⟨fun v h => ?_, hb.only b⟩
  rw [hb.reads b v h]
  split
  · exact .inl rfl
  · exact .inr rfl

theorem npMake_bare {L L0 : Lib} (hb : Bare L L0) (d : DType) (v : Val) : npMake L0 d v = npMake L d v := by
  unfold npMake
  rw [hb.longs]

theorem decodeProxy_bare {R R0 : RecvEnv} (hr : BareRecv R R0) (d : List (Val × Val)) :
    decodeProxy R0 d = decodeProxy R d := by
  unfold decodeProxy
  rw [hr.server]

theorem decodeIf_true (R : RecvEnv) (d : List (Val × Val)) : decodeIf true R d = decode R d := by
  unfold decodeIf; split <;> rfl

theorem jdecodeIf_true (R : RecvEnv) (d : List (Val × Val)) : jdecodeIf true R d = jdecode R d := by
  unfold jdecodeIf; split <;> rfl

/-- Apart from arrays, the base `decode` differs in pickles only. -/
theorem decode_soi {R R0 : RecvEnv} (hr : BareRecv R R0) (d : List (Val × Val))
    (hn : (lookupStr d encodeKey).bind Val.text? ≠ some "ndarray") : SameOrImport (decode R d) (decode R0 d) := by
  unfold decode
  cases h : lookupStr d encodeKey with
  | none => exact soi_refl _
  | some tn =>
    rw [h] at hn
    simp only [Option.bind_some] at hn
    cases tn with
    | none => exact soi_refl _
    | proxy p => exact soi_refl _
    | _ =>
      all_goals
        simp only
        split
        · rename_i h1; exact absurd h1 hn
        · split
          · exact soi_pickle hr.lib _
          · exact soi_refl _
          · exact soi_refl _
        · simp only [npMake_bare hr.lib]; exact soi_refl _
        · exact soi_refl _
        · exact soi_refl _
        · exact soi_refl _
        · exact soi_refl _
        · rw [decodeProxy_bare hr]; exact soi_refl _
        · exact soi_refl _

theorem decodeIf_soi {R R0 : RecvEnv} (hr : BareRecv R R0) (d : List (Val × Val)) :
    SameOrImport (decode R d) (decodeIf false R0 d) := by
  unfold decodeIf
  split
  · exact soi_import _
  · rename_i h; exact decode_soi hr d h

theorem jdecodeIf_soi {R R0 : RecvEnv} (hr : BareRecv R R0) (d : List (Val × Val)) :
    SameOrImport (jdecode R d) (jdecodeIf false R0 d) := by
  unfold jdecodeIf
  split
  · exact soi_import _
  · rename_i h
    unfold jdecode
    split
    · rename_i h1; exact absurd h1 h
    · exact soi_refl _
    · exact decode_soi hr d h

/-- Sequencing keeps the relation. -/
theorem soi_bind {α β : Type} {x x0 : Except Exc α} {f f0 : α → Except Exc β} (hx : SameOrImport x x0)
    (hf : ∀ a, SameOrImport (f a) (f0 a)) : SameOrImport (x.bind f) (x0.bind f0) := by
  constructor
  · intro v h
    cases hx' : x with
    | error e => rw [hx'] at h; cases h
    | ok a =>
      rw [hx'] at h
      rcases hx.1 a hx' with h0 | h0
      · rw [h0]; exact (hf a).1 v h
      · rw [h0]; exact .inr rfl
  · intro v h
    cases hx' : x0 with
    | error e => rw [hx'] at h; cases h
    | ok a =>
      rw [hx'] at h
      rw [hx.2 a hx']; exact (hf a).2 v h

theorem unpack_arr_bind (R : RecvEnv) (l : List Wire) :
    unpack R (.arr l) = (unpackL R l).bind fun vs => .ok (.list vs) := by
  simp only [unpack]; cases unpackL R l <;> rfl

theorem unpack_map_bind (R : RecvEnv) (m : List (Wire × Wire)) :
    unpack R (.map m) = (unpackM R m).bind fun d => decode R (dictOf d) := by
  simp only [unpack]; cases unpackM R m <;> rfl

theorem unpackL_bind (R : RecvEnv) (w : Wire) (ws : List Wire) :
    unpackL R (w :: ws) = (unpack R w).bind fun v => (unpackL R ws).bind fun vs => .ok (v :: vs) := by
  simp only [unpackL]; cases unpack R w <;> simp only [Except.bind]; cases unpackL R ws <;> rfl

theorem unpackM_bind (R : RecvEnv) (k w : Wire) (r : List (Wire × Wire)) :
    unpackM R ((k, w) :: r) = (unpack R k).bind fun kv =>
      if ¬ keyOk kv then .error .valueError
      else (unpack R w).bind fun v => (unpackM R r).bind fun d => .ok ((kv, v) :: d) := by
  simp only [unpackM]; cases unpack R k <;> simp only [Except.bind]
  split
  · rfl
  · cases unpack R w <;> simp only; cases unpackM R r <;> rfl

theorem unpackIf_arr_bind (np : Bool) (R : RecvEnv) (l : List Wire) :
    unpackIf np R (.arr l) = (unpackIfL np R l).bind fun vs => .ok (.list vs) := by
  simp only [unpackIf]; cases unpackIfL np R l <;> rfl

theorem unpackIf_map_bind (np : Bool) (R : RecvEnv) (m : List (Wire × Wire)) :
    unpackIf np R (.map m) = (unpackIfM np R m).bind fun d => decodeIf np R (dictOf d) := by
  simp only [unpackIf]; cases unpackIfM np R m <;> rfl

theorem unpackIfL_bind (np : Bool) (R : RecvEnv) (w : Wire) (ws : List Wire) :
    unpackIfL np R (w :: ws) = (unpackIf np R w).bind fun v => (unpackIfL np R ws).bind fun vs => .ok (v :: vs) := by
  simp only [unpackIfL]; cases unpackIf np R w <;> simp only [Except.bind]; cases unpackIfL np R ws <;> rfl

theorem unpackIfM_bind (np : Bool) (R : RecvEnv) (k w : Wire) (r : List (Wire × Wire)) :
    unpackIfM np R ((k, w) :: r) = (unpackIf np R k).bind fun kv =>
      if ¬ keyOk kv then .error .valueError
      else (unpackIf np R w).bind fun v => (unpackIfM np R r).bind fun d => .ok ((kv, v) :: d) := by
  simp only [unpackIfM]; cases unpackIf np R k <;> simp only [Except.bind]
  split
  · rfl
  · cases unpackIf np R w <;> simp only; cases unpackIfM np R r <;> rfl

mutual
theorem unpack_soi {R R0 : RecvEnv} (hr : BareRecv R R0) : ∀ w, SameOrImport (unpack R w) (unpackIf false R0 w)
  | .nil => soi_refl _
  | .bool _ => soi_refl _
  | .int _ => soi_refl _
  | .float _ => soi_refl _
  | .str _ => soi_refl _
  | .bin _ => soi_refl _
  | .arr l => by
    rw [unpack_arr_bind, unpackIf_arr_bind]
    exact soi_bind (unpackL_soi hr l) (fun a => soi_refl _)
  | .map m => by
    rw [unpack_map_bind, unpackIf_map_bind]
    exact soi_bind (unpackM_soi hr m) (fun a => decodeIf_soi hr _)
theorem unpackL_soi {R R0 : RecvEnv} (hr : BareRecv R R0) : ∀ l, SameOrImport (unpackL R l) (unpackIfL false R0 l)
  | [] => soi_refl _
  | w :: ws => by
    rw [unpackL_bind, unpackIfL_bind]
    exact soi_bind (unpack_soi hr w) (fun a => soi_bind (unpackL_soi hr ws) (fun b => soi_refl _))
theorem unpackM_soi {R R0 : RecvEnv} (hr : BareRecv R R0) : ∀ m, SameOrImport (unpackM R m) (unpackIfM false R0 m)
  | [] => soi_refl _
  | (k, w) :: r => by
    rw [unpackM_bind, unpackIfM_bind]
    refine soi_bind (unpack_soi hr k) (fun a => ?_)
    split
    · exact soi_refl _
    · exact soi_bind (unpack_soi hr w) (fun b => soi_bind (unpackM_soi hr r) (fun c => soi_refl _))
end

theorem junpack_arr_bind (R : RecvEnv) (l : List Wire) :
    junpack R (.arr l) = (junpackL R l).bind fun vs => .ok (.list vs) := by
  simp only [junpack]; cases junpackL R l <;> rfl

theorem junpack_map_bind (R : RecvEnv) (m : List (Wire × Wire)) :
    junpack R (.map m) = (junpackM R m).bind fun d => jdecode R (dictOf d) := by
  simp only [junpack]; cases junpackM R m <;> rfl

theorem junpackL_bind (R : RecvEnv) (w : Wire) (ws : List Wire) :
    junpackL R (w :: ws) = (junpack R w).bind fun v => (junpackL R ws).bind fun vs => .ok (v :: vs) := by
  simp only [junpackL]; cases junpack R w <;> simp only [Except.bind]; cases junpackL R ws <;> rfl

theorem junpackM_bind (R : RecvEnv) (k : String) (w : Wire) (r : List (Wire × Wire)) :
    junpackM R ((.str k, w) :: r) =
      (junpack R w).bind fun v => (junpackM R r).bind fun d => .ok ((.str k, v) :: d) := by
  simp only [junpackM]; cases junpack R w <;> simp only [Except.bind]; cases junpackM R r <;> rfl

theorem junpackIf_arr_bind (np : Bool) (R : RecvEnv) (l : List Wire) :
    junpackIf np R (.arr l) = (junpackIfL np R l).bind fun vs => .ok (.list vs) := by
  simp only [junpackIf]; cases junpackIfL np R l <;> rfl

theorem junpackIf_map_bind (np : Bool) (R : RecvEnv) (m : List (Wire × Wire)) :
    junpackIf np R (.map m) = (junpackIfM np R m).bind fun d => jdecodeIf np R (dictOf d) := by
  simp only [junpackIf]; cases junpackIfM np R m <;> rfl

theorem junpackIfL_bind (np : Bool) (R : RecvEnv) (w : Wire) (ws : List Wire) :
    junpackIfL np R (w :: ws) = (junpackIf np R w).bind fun v => (junpackIfL np R ws).bind fun vs => .ok (v :: vs) := by
  simp only [junpackIfL]; cases junpackIf np R w <;> simp only [Except.bind]; cases junpackIfL np R ws <;> rfl

theorem junpackIfM_bind (np : Bool) (R : RecvEnv) (k : String) (w : Wire) (r : List (Wire × Wire)) :
    junpackIfM np R ((.str k, w) :: r) =
      (junpackIf np R w).bind fun v => (junpackIfM np R r).bind fun d => .ok ((.str k, v) :: d) := by
  simp only [junpackIfM]; cases junpackIf np R w <;> simp only [Except.bind]; cases junpackIfM np R r <;> rfl

mutual
theorem junpack_soi {R R0 : RecvEnv} (hr : BareRecv R R0) : ∀ w, SameOrImport (junpack R w) (junpackIf false R0 w)
  | .nil => soi_refl _
  | .bool _ => soi_refl _
  | .int _ => soi_refl _
  | .float _ => soi_refl _
  | .str _ => soi_refl _
  | .bin _ => soi_refl _
  | .arr l => by
    rw [junpack_arr_bind, junpackIf_arr_bind]
    exact soi_bind (junpackL_soi hr l) (fun a => soi_refl _)
  | .map m => by
    rw [junpack_map_bind, junpackIf_map_bind]
    exact soi_bind (junpackM_soi hr m) (fun a => jdecodeIf_soi hr _)
theorem junpackL_soi {R R0 : RecvEnv} (hr : BareRecv R R0) : ∀ l, SameOrImport (junpackL R l) (junpackIfL false R0 l)
  | [] => soi_refl _
  | w :: ws => by
    rw [junpackL_bind, junpackIfL_bind]
    exact soi_bind (junpack_soi hr w) (fun a => soi_bind (junpackL_soi hr ws) (fun b => soi_refl _))
theorem junpackM_soi {R R0 : RecvEnv} (hr : BareRecv R R0) : ∀ m, SameOrImport (junpackM R m) (junpackIfM false R0 m)
  | [] => soi_refl _
  | (k, w) :: r => by
    cases k with
    | str k =>
      rw [junpackM_bind, junpackIfM_bind]
      exact soi_bind (junpack_soi hr w) (fun b => soi_bind (junpackM_soi hr r) (fun c => soi_refl _))
    | _ => simp only [junpackM, junpackIfM]; exact soi_refl _
end

mutual
/-- With numpy the tests change nothing. -/
theorem unpackIf_true (R : RecvEnv) : ∀ w, unpackIf true R w = unpack R w
  | .nil => rfl
  | .bool _ => rfl
  | .int _ => rfl
  | .float _ => rfl
  | .str _ => rfl
  | .bin _ => rfl
  | .arr l => by simp only [unpack, unpackIf, unpackIfL_true R l]; rfl
  | .map m => by simp only [unpack, unpackIf, unpackIfM_true R m, decodeIf_true]; rfl
theorem unpackIfL_true (R : RecvEnv) : ∀ l, unpackIfL true R l = unpackL R l
  | [] => rfl
  | w :: ws => by simp only [unpackL, unpackIfL, unpackIf_true R w, unpackIfL_true R ws]; rfl
theorem unpackIfM_true (R : RecvEnv) : ∀ m, unpackIfM true R m = unpackM R m
  | [] => rfl
  | (k, w) :: r => by
    simp only [unpackM, unpackIfM, unpackIf_true R k, unpackIf_true R w, unpackIfM_true R r]; rfl
end

mutual
theorem junpackIf_true (R : RecvEnv) : ∀ w, junpackIf true R w = junpack R w
  | .nil => rfl
  | .bool _ => rfl
  | .int _ => rfl
  | .float _ => rfl
  | .str _ => rfl
  | .bin _ => rfl
  | .arr l => by simp only [junpack, junpackIf, junpackIfL_true R l]; rfl
  | .map m => by simp only [junpack, junpackIf, junpackIfM_true R m, jdecodeIf_true]; rfl
theorem junpackIfL_true (R : RecvEnv) : ∀ l, junpackIfL true R l = junpackL R l
  | [] => rfl
  | w :: ws => by simp only [junpackL, junpackIfL, junpackIf_true R w, junpackIfL_true R ws]; rfl
theorem junpackIfM_true (R : RecvEnv) : ∀ m, junpackIfM true R m = junpackM R m
  | [] => rfl
  | (k, w) :: r => by
    cases k <;> simp only [junpackM, junpackIfM, junpackIf_true R w, junpackIfM_true R r] <;> rfl
end

end Verif
