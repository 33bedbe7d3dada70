import Verif.Spec.Exec
import Verif.Props.Serializer
import Verif.Proof.OptionalFree
/-! # What reading a message runs -/
namespace Verif

mutual
theorem unpackT_snd (R : RecvEnv) : ∀ w, (unpackT R w).2 = unpack R w
  | .nil | .bool _ | .int _ | .float _ | .str _ | .bin _ => rfl
  | .arr l => by
    have := unpackTL_snd R l
    simp only [unpackT, unpack, ← this]
    rcases unpackTL R l with ⟨o, _ | _⟩ <;> rfl
  | .map m => by
    have := unpackTM_snd R m
    simp only [unpackT, unpack, ← this]
    rcases unpackTM R m with ⟨o, _ | _⟩ <;> rfl
theorem unpackTL_snd (R : RecvEnv) : ∀ l, (unpackTL R l).2 = unpackL R l
  | [] => rfl
  | w :: ws => by
    have h1 := unpackT_snd R w
    have h2 := unpackTL_snd R ws
    simp only [unpackTL, unpackL, ← h1, ← h2]
    rcases unpackT R w with ⟨o, _ | _⟩ <;> simp only
    rcases unpackTL R ws with ⟨o, _ | _⟩ <;> rfl
theorem unpackTM_snd (R : RecvEnv) : ∀ m, (unpackTM R m).2 = unpackM R m
  | [] => rfl
  | (k, w) :: r => by
    have h0 := unpackT_snd R k
    have h1 := unpackT_snd R w
    have h2 := unpackTM_snd R r
    simp only [unpackTM, unpackM, ← h0, ← h1, ← h2]
    rcases unpackT R k with ⟨o, _ | kv⟩ <;> simp only
    split
    · rfl
    · rcases unpackT R w with ⟨o, _ | _⟩ <;> simp only
      rcases unpackTM R r with ⟨o, _ | _⟩ <;> rfl
end

mutual
theorem junpackT_snd (R : RecvEnv) : ∀ w, (junpackT R w).2 = junpack R w
  | .nil | .bool _ | .int _ | .float _ | .str _ | .bin _ => rfl
  | .arr l => by
    have := junpackTL_snd R l
    simp only [junpackT, junpack, ← this]
    rcases junpackTL R l with ⟨o, _ | _⟩ <;> rfl
  | .map m => by
    have := junpackTM_snd R m
    simp only [junpackT, junpack, ← this]
    rcases junpackTM R m with ⟨o, _ | _⟩ <;> rfl
theorem junpackTL_snd (R : RecvEnv) : ∀ l, (junpackTL R l).2 = junpackL R l
  | [] => rfl
  | w :: ws => by
    have h1 := junpackT_snd R w
    have h2 := junpackTL_snd R ws
    simp only [junpackTL, junpackL, ← h1, ← h2]
    rcases junpackT R w with ⟨o, _ | _⟩ <;> simp only
    rcases junpackTL R ws with ⟨o, _ | _⟩ <;> rfl
theorem junpackTM_snd (R : RecvEnv) : ∀ m, (junpackTM R m).2 = junpackM R m
  | [] => rfl
  | (k, w) :: r => by
    have h1 := junpackT_snd R w
    have h2 := junpackTM_snd R r
    cases k <;> simp only [junpackTM, junpackM]
    case str k =>
      simp only [← h1, ← h2]
      rcases junpackT R w with ⟨o, _ | _⟩ <;> simp only
      rcases junpackTM R r with ⟨o, _ | _⟩ <;> rfl
end

/-! ## A library that refuses to run anything but `G` -/

open Classical in
/-- The same libraries, but `pickle.loads` and `exec` fail on everything outside `G`. -/
noncomputable def Lib.guard (G : Ran → Prop) (L : Lib) : Lib :=
  { L with
    pickleLoads := fun b => if G (.pickle b) then L.pickleLoads b else .error .runtimeError
    dtypeExec := fun s => if G (.exec s) then L.dtypeExec s else .error .runtimeError }

/-- The sender with the guarded libraries. -/
noncomputable def SendEnv.guard (G : Ran → Prop) (E : SendEnv) : SendEnv := { E with lib := E.lib.guard G }
/-- The receiver with the guarded libraries. -/
noncomputable def RecvEnv.guard (G : Ran → Prop) (R : RecvEnv) : RecvEnv := { R with lib := R.lib.guard G }

theorem encode_guard (G : Ran → Prop) (E : SendEnv) (t : Refs) (v : Val) : encode (E.guard G) t v = encode E t v := rfl

theorem jencode_guard (G : Ran → Prop) (E : SendEnv) (t : Refs) (v : Val) : jencode (E.guard G) t v = jencode E t v := rfl

theorem pack_guard (G : Ran → Prop) (E : SendEnv) : ∀ n t v, pack (E.guard G) n t v = pack E n t v := by
  intro n
  induction n with
  | zero => intro t v; rfl
  | succ n ih =>
    intro t v
    have : pack (E.guard G) n = pack E n := by funext t v; exact ih t v
    cases v <;> simp only [pack, this, encode_guard]

theorem jpack_guard (G : Ran → Prop) (E : SendEnv) : ∀ n t v, jpack (E.guard G) n t v = jpack E n t v := by
  intro n
  induction n with
  | zero => intro t v; rfl
  | succ n ih =>
    intro t v
    have : jpack (E.guard G) n = jpack E n := by funext t v; exact ih t v
    have hk : jpair (E.guard G).lib = jpair E.lib := rfl
    cases h : v.core <;> simp only [jpack, h, this, jencode_guard, hk]

/-- One `decode` that succeeds with the guarded libraries gives the same without the guard and runs only `G`. -/
theorem decode_guard {G : Ran → Prop} {R : RecvEnv} {d : List (Val × Val)} {v : Val}
    (h : decode (R.guard G) d = .ok v) : decode R d = .ok v ∧ ∀ r ∈ decodeRuns d, G r := by
  unfold decode at h ⊢
  unfold decodeRuns
  cases ht : lookupStr d encodeKey with
  | none => rw [ht] at h; simp only [Option.bind_none] ; exact ⟨h, by simp⟩
  | some tn =>
    rw [ht] at h
    simp only [Option.bind_some]
    cases tn
    case none => exact ⟨h, by simp [Val.text?, Val.core]⟩
    case proxy => cases h
    all_goals
      simp only at h ⊢
      generalize Val.text? _ = x at h ⊢
      split at h
      · unfold decodeArray need at h ⊢
        cases hd : lookupStr (removeStr d encodeKey) "dtype" with
        | none => rw [hd] at h; cases h
        | some dt =>
          rw [hd] at h
          cases dt
          case str dt =>
            simp only at h ⊢
            cases hb : lookupStr (removeStr d encodeKey) "data" with
            | none => rw [hb] at h; cases h
            | some b =>
              rw [hb] at h
              simp only at h ⊢
              by_cases hs : startsWithC '[' dt = true
              · simp only [hs, if_true] at h ⊢
                by_cases hg : G (.exec dt)
                · simp only [RecvEnv.guard, Lib.guard, hg, if_true] at h
                  exact ⟨h, by simp [hg]⟩
                · simp only [RecvEnv.guard, Lib.guard, hg, if_false, buildArray] at h
                  cases h
              · simp only [hs] at h ⊢
                exact ⟨h, by simp⟩
          all_goals cases h
      · unfold need at h ⊢
        cases hd : lookupStr (removeStr d encodeKey) "pickle_str" with
        | none => rw [hd] at h; cases h
        | some b =>
          rw [hd] at h
          cases b
          case bytes b =>
            simp only at h ⊢
            by_cases hg : G (.pickle b)
            · simp only [RecvEnv.guard, Lib.guard, hg, if_true] at h
              exact ⟨h, by simp [hg]⟩
            · simp only [RecvEnv.guard, Lib.guard, hg, if_false] at h
              cases h
          all_goals cases h
      · exact ⟨h, by simp⟩
      · exact ⟨h, by simp⟩
      · exact ⟨h, by simp⟩
      · exact ⟨h, by simp⟩
      · exact ⟨h, by simp⟩
      · exact ⟨h, by simp⟩
      · refine ⟨h, ?_⟩
        split <;> simp_all

theorem jdecode_guard {G : Ran → Prop} {R : RecvEnv} {d : List (Val × Val)} {v : Val}
    (h : jdecode (R.guard G) d = .ok v) : jdecode R d = .ok v ∧ ∀ r ∈ jdecodeRuns d, G r := by
  unfold jdecode at h ⊢
  unfold jdecodeRuns
  generalize (lookupStr d encodeKey).bind Val.text? = x at h ⊢
  split at h
  · exact ⟨h, by simp⟩
  · exact ⟨h, by simp⟩
  · have := decode_guard h
    refine ⟨this.1, ?_⟩
    split
    · simp
    · simp
    · exact this.2

/-- What a run that succeeds with the guarded libraries tells about one without the guard. -/
def Guarded {α : Type} (G : Ran → Prop) (x : Except Exc α) (y : List Ran × Except Exc α) : Prop :=
  ∀ v, x = .ok v → y.2 = .ok v ∧ ∀ r ∈ y.1, G r

theorem mem_app {G : Ran → Prop} {a b : List Ran} (ha : ∀ r ∈ a, G r) (hb : ∀ r ∈ b, G r) : ∀ r ∈ a ++ b, G r := by
  intro r h
  rcases List.mem_append.1 h with h | h
  · exact ha r h
  · exact hb r h

mutual
theorem unpack_guard {G : Ran → Prop} {R : RecvEnv} : ∀ w, Guarded G (unpack (R.guard G) w) (unpackT R w)
  | .nil | .bool _ | .int _ | .float _ | .str _ | .bin _ => by
    intro v h; exact ⟨h, by simp [unpackT]⟩
  | .arr l => by
    intro v h
    rw [unpack_arr_bind] at h
    obtain ⟨vs, h1, h2⟩ := exbind_ok h
    have h3 := unpackL_guard l vs h1
    simp only [unpackT]
    rcases hx : unpackTL R l with ⟨o, x⟩
    rw [hx] at h3
    obtain ⟨rfl, h4⟩ := h3
    exact ⟨h2, h4⟩
  | .map m => by
    intro v h
    rw [unpack_map_bind] at h
    obtain ⟨d, h1, h2⟩ := exbind_ok h
    have h3 := unpackM_guard m d h1
    simp only [unpackT]
    rcases hx : unpackTM R m with ⟨o, x⟩
    rw [hx] at h3
    obtain ⟨rfl, h4⟩ := h3
    have h5 := decode_guard h2
    exact ⟨h5.1, mem_app h4 h5.2⟩
theorem unpackL_guard {G : Ran → Prop} {R : RecvEnv} : ∀ l, Guarded G (unpackL (R.guard G) l) (unpackTL R l)
  | [] => by intro v h; exact ⟨h, by simp [unpackTL]⟩
  | w :: ws => by
    intro v h
    rw [unpackL_bind] at h
    obtain ⟨a, h1, h⟩ := exbind_ok h
    obtain ⟨b, h2, h⟩ := exbind_ok h
    have h3 := unpack_guard w a h1
    have h4 := unpackL_guard ws b h2
    simp only [unpackTL]
    rcases hx : unpackT R w with ⟨o, x⟩
    rcases hy : unpackTL R ws with ⟨o', y⟩
    rw [hx] at h3; rw [hy] at h4
    obtain ⟨rfl, h5⟩ := h3
    obtain ⟨rfl, h6⟩ := h4
    exact ⟨h, mem_app h5 h6⟩
theorem unpackM_guard {G : Ran → Prop} {R : RecvEnv} : ∀ m, Guarded G (unpackM (R.guard G) m) (unpackTM R m)
  | [] => by intro v h; exact ⟨h, by simp [unpackTM]⟩
  | (k, w) :: r => by
    intro v h
    rw [unpackM_bind] at h
    obtain ⟨kv, h0, h⟩ := exbind_ok h
    split at h
    · cases h
    · rename_i hk
      obtain ⟨a, h1, h⟩ := exbind_ok h
      obtain ⟨b, h2, h⟩ := exbind_ok h
      have h3 := unpack_guard k kv h0
      have h4 := unpack_guard w a h1
      have h5 := unpackM_guard r b h2
      simp only [unpackTM]
      rcases hx : unpackT R k with ⟨o, x⟩
      rcases hy : unpackT R w with ⟨o', y⟩
      rcases hz : unpackTM R r with ⟨o'', z⟩
      rw [hx] at h3; rw [hy] at h4; rw [hz] at h5
      obtain ⟨rfl, h6⟩ := h3
      obtain ⟨rfl, h7⟩ := h4
      obtain ⟨rfl, h8⟩ := h5
      simp only [if_neg hk]
      exact ⟨h, mem_app (mem_app h6 h7) h8⟩
end

mutual
theorem junpack_guard {G : Ran → Prop} {R : RecvEnv} : ∀ w, Guarded G (junpack (R.guard G) w) (junpackT R w)
  | .nil | .bool _ | .int _ | .float _ | .str _ | .bin _ => by
    intro v h; exact ⟨h, by simp [junpackT]⟩
  | .arr l => by
    intro v h
    rw [junpack_arr_bind] at h
    obtain ⟨vs, h1, h2⟩ := exbind_ok h
    have h3 := junpackL_guard l vs h1
    simp only [junpackT]
    rcases hx : junpackTL R l with ⟨o, x⟩
    rw [hx] at h3
    obtain ⟨rfl, h4⟩ := h3
    exact ⟨h2, h4⟩
  | .map m => by
    intro v h
    rw [junpack_map_bind] at h
    obtain ⟨d, h1, h2⟩ := exbind_ok h
    have h3 := junpackM_guard m d h1
    simp only [junpackT]
    rcases hx : junpackTM R m with ⟨o, x⟩
    rw [hx] at h3
    obtain ⟨rfl, h4⟩ := h3
    have h5 := jdecode_guard h2
    exact ⟨h5.1, mem_app h4 h5.2⟩
theorem junpackL_guard {G : Ran → Prop} {R : RecvEnv} : ∀ l, Guarded G (junpackL (R.guard G) l) (junpackTL R l)
  | [] => by intro v h; exact ⟨h, by simp [junpackTL]⟩
  | w :: ws => by
    intro v h
    rw [junpackL_bind] at h
    obtain ⟨a, h1, h⟩ := exbind_ok h
    obtain ⟨b, h2, h⟩ := exbind_ok h
    have h3 := junpack_guard w a h1
    have h4 := junpackL_guard ws b h2
    simp only [junpackTL]
    rcases hx : junpackT R w with ⟨o, x⟩
    rcases hy : junpackTL R ws with ⟨o', y⟩
    rw [hx] at h3; rw [hy] at h4
    obtain ⟨rfl, h5⟩ := h3
    obtain ⟨rfl, h6⟩ := h4
    exact ⟨h, mem_app h5 h6⟩
theorem junpackM_guard {G : Ran → Prop} {R : RecvEnv} : ∀ m, Guarded G (junpackM (R.guard G) m) (junpackTM R m)
  | [] => by intro v h; exact ⟨h, by simp [junpackTM]⟩
  | (k, w) :: r => by
    intro v h
    cases k with
    | str k =>
      rw [junpackM_bind] at h
      obtain ⟨a, h1, h⟩ := exbind_ok h
      obtain ⟨b, h2, h⟩ := exbind_ok h
      have h4 := junpack_guard w a h1
      have h5 := junpackM_guard r b h2
      simp only [junpackTM]
      rcases hy : junpackT R w with ⟨o', y⟩
      rcases hz : junpackTM R r with ⟨o'', z⟩
      rw [hy] at h4; rw [hz] at h5
      obtain ⟨rfl, h7⟩ := h4
      obtain ⟨rfl, h8⟩ := h5
      exact ⟨h, mem_app h7 h8⟩
    | _ => simp [junpackM] at h
end

/-! ## The guarded ends of a connection -/

theorem guard_laws {L : Lib} (h : L.Laws) {G : Ran → Prop} (hp : ∀ r, Ran.ownPickle L r → G r)
    (he : ∀ r, Ran.dtypeName L r → G r) : (L.guard G).Laws where
  pickle v b hb := by
    have hb : L.pickleDumps v = .ok b := hb
    have hg : G (.pickle b) := hp _ ⟨v, b, hb, rfl⟩
    simp only [Lib.guard, if_pos hg]
    exact h.pickle v b hb
  pickleInt := h.pickleInt
  dtypePickles := h.dtypePickles
  parse := h.parse
  exec d hk hs := by
    have hg : G (.exec d.name) := he _ ⟨d, hk, hs, rfl⟩
    simp only [Lib.guard, if_pos hg]
    exact h.exec d hk hs
  noParse := h.noParse

theorem guard_link {L : Lib} {E : SendEnv} {R : RecvEnv} (h : Link L E R) {G : Ran → Prop}
    (hp : ∀ r, Ran.ownPickle L r → G r) (he : ∀ r, Ran.dtypeName L r → G r) :
    Link (L.guard G) (E.guard G) (R.guard G) where
  laws := guard_laws h.laws hp he
  sender := by rw [SendEnv.guard, h.sender]
  receiver := by rw [RecvEnv.guard, h.receiver]
  types := h.types
  notOwner := h.notOwner

mutual
theorem sendable_guard {R : RecvEnv} {G : Ran → Prop} : ∀ v : Val, Sendable R v → Sendable (R.guard G) v
  | .list l, h => by simp only [Sendable] at h ⊢; exact sendableL_guard l h
  | .tuple l, h => by simp only [Sendable] at h ⊢; exact sendableL_guard l h
  | .dict d, h => by simp only [Sendable] at h ⊢; exact ⟨h.1, sendableD_guard d h.2⟩
  | .sub c v, h => by simp only [Sendable] at h ⊢; exact fun hf => sendable_guard v (h hf)
  | .ndarray _, h | .npScalar _, h | .datetime _, h | .date _, h | .proxy _, h => h
  | .none, _ | .bool _, _ | .int _, _ | .float _, _ | .str _, _ | .bytes _, _ | .dtype _, _ | .obj _ _, _ => trivial
theorem sendableL_guard {R : RecvEnv} {G : Ran → Prop} : ∀ l, SendableL R l → SendableL (R.guard G) l
  | [], _ => trivial
  | v :: vs, h => ⟨sendable_guard v h.1, sendableL_guard vs h.2⟩
theorem sendableD_guard {R : RecvEnv} {G : Ran → Prop} : ∀ d, SendableD R d → SendableD (R.guard G) d
  | [], _ => trivial
  | (_, v) :: vs, h => ⟨sendable_guard v h.1, sendableD_guard vs h.2⟩
end

mutual
theorem jsendable_guard {R : RecvEnv} {G : Ran → Prop} : ∀ v : Val, JSendable R v → JSendable (R.guard G) v
  | .list l, h => by simp only [JSendable] at h ⊢; exact jsendableL_guard l h
  | .tuple l, h => by simp only [JSendable] at h ⊢; exact jsendableL_guard l h
  | .dict d, h => by simp only [JSendable] at h ⊢; exact ⟨h.1, jsendableD_guard d h.2⟩
  | .sub c v, h => by simp only [JSendable] at h ⊢; exact fun hf => jsendable_guard v (h hf)
  | .ndarray _, h | .npScalar _, h | .datetime _, h | .date _, h | .proxy _, h => h
  | .none, _ | .bool _, _ | .int _, _ | .float _, _ | .str _, _ | .bytes _, _ | .dtype _, _ | .obj _ _, _ => trivial
theorem jsendableL_guard {R : RecvEnv} {G : Ran → Prop} : ∀ l, JSendableL R l → JSendableL (R.guard G) l
  | [], _ => trivial
  | v :: vs, h => ⟨jsendable_guard v h.1, jsendableL_guard vs h.2⟩
theorem jsendableD_guard {R : RecvEnv} {G : Ran → Prop} : ∀ d, JSendableD R d → JSendableD (R.guard G) d
  | [], _ => trivial
  | (_, v) :: vs, h => ⟨jsendable_guard v h.1, jsendableD_guard vs h.2⟩
end

/-! ## Messages that run nothing -/

theorem itemSet_values {d : List (Val × Val)} {k v : Val} {P : Val → Prop} (hd : ∀ e ∈ d, P e.2) (hv : P v) :
    ∀ e ∈ itemSet d k v, P e.2 := by
  induction d with
  | nil => intro e h; simp [itemSet] at h; subst h; exact hv
  | cons a r ih =>
    obtain ⟨k', v'⟩ := a
    have h1 : P v' := hd _ (List.mem_cons_self)
    have h2 := ih fun e he => hd e (List.mem_cons_of_mem _ he)
    intro e h
    simp only [itemSet] at h
    split at h <;> rcases List.mem_cons.1 h with rfl | h
    · exact hv
    · exact hd _ (List.mem_cons_of_mem _ h)
    · exact h1
    · exact h2 _ h

theorem dictOf_values {l : List (Val × Val)} {P : Val → Prop} (h : ∀ e ∈ l, P e.2) : ∀ e ∈ dictOf l, P e.2 := by
  unfold dictOf
  have : ∀ (l d : List (Val × Val)), (∀ e ∈ l, P e.2) → (∀ e ∈ d, P e.2) →
      ∀ e ∈ l.foldl (fun d kv => itemSet d kv.1 kv.2) d, P e.2 := by
    intro l
    induction l with
    | nil => intro d _ hd; exact hd
    | cons a r ih =>
      intro d hl hd
      exact ih _ (fun e he => hl e (List.mem_cons_of_mem _ he)) (itemSet_values hd (hl a List.mem_cons_self))
  exact this l [] h (by simp)

theorem tag_notText {d : List (Val × Val)} {bad : List String} (h : ∀ e ∈ d, e.2.notText bad) (s : String)
    (hs : s ∈ bad) : (lookupStr d encodeKey).bind Val.text? ≠ some s := by
  cases hl : lookupStr d encodeKey with
  | none => simp
  | some v => exact h _ (lookupStr_mem hl) s hs

theorem decodeRuns_quiet {d : List (Val × Val)} (h : ∀ e ∈ d, e.2.notText ["pickle", "ndarray"]) : decodeRuns d = [] := by
  have h1 := tag_notText h "pickle" (by simp)
  have h2 := tag_notText h "ndarray" (by simp)
  unfold decodeRuns
  generalize (lookupStr d encodeKey).bind Val.text? = x at h1 h2
  split
  · exact absurd rfl h2
  · exact absurd rfl h1
  · rfl

theorem jdecodeRuns_quiet {d : List (Val × Val)} (h : ∀ e ∈ d, e.2.notText ["pickle"]) : jdecodeRuns d = [] := by
  have h1 := tag_notText h "pickle" (by simp)
  unfold jdecodeRuns decodeRuns
  generalize (lookupStr d encodeKey).bind Val.text? = x at h1
  split
  · rfl
  · rfl
  · split
    · rename_i hx _; exact absurd rfl hx
    · exact absurd rfl h1
    · rfl

/-- A value that is no text at all. -/
theorem notText_of {bad : List String} {v : Val} (h : v.text? = none) : v.notText bad := by
  intro s _; rw [h]; simp

theorem npMake_text {L : Lib} {dt : DType} {v w : Val} (h : npMake L dt v = .ok w) : w.text? = none := by
  unfold npMake at h
  split at h <;> cases h <;> rfl

theorem buildArray_text {b : Except Exc Bytes} {dt : Except Exc DType} {sh : Option Val} {w : Val} (h : buildArray b dt sh = .ok w) :
    w.text? = none := by
  unfold buildArray at h
  repeat' split at h
  all_goals cases h
  rfl

theorem decodeArray_text {R : RecvEnv} {d : List (Val × Val)} {w : Val} (h : decodeArray R d = .ok w) : w.text? = none := by
  unfold decodeArray at h
  split at h
  · cases h
  · split at h
    · cases h
    · exact buildArray_text h
  · cases h
  · cases h

/-- What `decode` makes of a dict that is not tagged as a pickle is no forbidden text. -/
theorem decode_notText {R : RecvEnv} {bad : List String} (hR : R.servesNone bad) {d : List (Val × Val)} {v : Val}
    (ht : (lookupStr d encodeKey).bind Val.text? ≠ some "pickle") (h : decode R d = .ok v) : v.notText bad := by
  unfold decode at h
  cases hl : lookupStr d encodeKey with
  | none => rw [hl] at h; cases h; exact notText_of rfl
  | some tn =>
    rw [hl] at h ht
    simp only [Option.bind_some] at ht
    have key : ∀ x : Option String, x ≠ some "pickle" → ∀ d : List (Val × Val),
        (match x with
          | some "ndarray" => decodeArray R d
          | some "pickle" =>
            match need d "pickle_str" with
            | .ok (.bytes b) => R.lib.pickleLoads b
            | .ok _ => .error .typeError
            | .error e => .error e
          | some "np_number" =>
            match need d "dtype" with
            | .ok (.dtype dt) =>
              match need d "value" with
              | .ok v => npMake R.lib dt v
              | .error e => .error e
            | .ok _ => .error .attributeError
            | .error e => .error e
          | some "datetime" =>
            match need d "data" with
            | .ok (.str s) =>
              match parseDateTime s.toList with
              | .ok t => .ok (.datetime t)
              | .error e => .error e
            | .ok _ => .error .typeError
            | .error e => .error e
          | some "date" =>
            match need d "data" with
            | .ok (.str s) =>
              match parseDate s.toList with
              | .ok t => .ok (.date t)
              | .error e => .error e
            | .ok _ => .error .typeError
            | .error e => .error e
          | some "tuple" =>
            match need d "data" with
            | .ok v =>
              match v.items with
              | some l => .ok (.tuple l)
              | none => .error .typeError
            | .error e => .error e
          | some "none" => .ok .none
          | some "proxy" => decodeProxy R d
          | _ => .ok (.dict d)) = Except.ok v → v.notText bad := by
      intro x hx d h
      split at h
      · exact notText_of (decodeArray_text h)
      · exact absurd rfl hx
      · repeat' split at h
        all_goals first | exact notText_of (npMake_text h) | cases h
      · repeat' split at h
        all_goals cases h
        exact notText_of rfl
      · repeat' split at h
        all_goals cases h
        exact notText_of rfl
      · repeat' split at h
        all_goals cases h
        exact notText_of rfl
      · cases h; exact notText_of rfl
      · unfold decodeProxy at h
        split at h
        · cases h
        · split at h
          · rename_i a f hs
            split at h
            · exact hR a f _ v hs h
            · cases h; exact notText_of rfl
          · cases h; exact notText_of rfl
      · cases h; exact notText_of rfl
    cases tn
    case none => cases h; exact notText_of rfl
    case proxy => cases h
    all_goals exact key _ ht _ h

theorem jdecode_notText {R : RecvEnv} {bad : List String} (hR : R.servesNone bad) {d : List (Val × Val)} {v : Val}
    (ht : (lookupStr d encodeKey).bind Val.text? ≠ some "pickle") (h : jdecode R d = .ok v) : v.notText bad := by
  unfold jdecode at h
  split at h
  · repeat' split at h
    all_goals first | exact notText_of (buildArray_text h) | cases h
  · repeat' split at h
    all_goals cases h
    exact notText_of rfl
  · exact decode_notText hR ht h

mutual
theorem unpackT_quiet {R : RecvEnv} (hR : R.servesNone ["pickle", "ndarray"]) :
    ∀ w : Wire, w.quiet ["pickle", "ndarray"] = true → (unpackT R w).1 = [] ∧
      (w.isText ["pickle", "ndarray"] = false → ∀ v, (unpackT R w).2 = .ok v → v.notText ["pickle", "ndarray"])
  | .nil, _ | .bool _, _ | .int _, _ | .float _, _ | .bin _, _ => by
    refine ⟨rfl, fun _ v h => ?_⟩
    cases h; exact notText_of rfl
  | .str s, _ => by
    refine ⟨rfl, fun hs v h => ?_⟩
    cases h
    intro x hx hc
    have : s = x := by simpa [Val.text?, Val.core] using hc
    subst this
    simp [Wire.isText] at hs
    simp [hs] at hx
  | .arr l, hq => by
    have h1 := unpackTL_quiet hR l (by simpa [Wire.quiet] using hq)
    simp only [unpackT]
    rcases hx : unpackTL R l with ⟨o, _ | vs⟩ <;> rw [hx] at h1 <;> simp only at h1 ⊢
    · exact ⟨h1, fun _ v h => by cases h⟩
    · exact ⟨h1, fun _ v h => by cases h; exact notText_of rfl⟩
  | .map m, hq => by
    have h1 := unpackTM_quiet hR m (by simpa [Wire.quiet] using hq)
    simp only [unpackT]
    rcases hx : unpackTM R m with ⟨o, _ | d⟩ <;> rw [hx] at h1 <;> simp only at h1 ⊢
    · exact ⟨h1.1, fun _ v h => by cases h⟩
    · have h2 := dictOf_values (h1.2 d rfl)
      refine ⟨by rw [h1.1, decodeRuns_quiet h2]; rfl, fun _ v h => ?_⟩
      exact decode_notText hR (tag_notText h2 "pickle" (by simp)) h
theorem unpackTL_quiet {R : RecvEnv} (hR : R.servesNone ["pickle", "ndarray"]) :
    ∀ l : List Wire, Wire.quietL ["pickle", "ndarray"] l = true → (unpackTL R l).1 = []
  | [], _ => rfl
  | w :: ws, hq => by
    simp only [Wire.quietL, Bool.and_eq_true] at hq
    have h1 := (unpackT_quiet hR w hq.1).1
    have h2 := unpackTL_quiet hR ws hq.2
    simp only [unpackTL]
    rcases hx : unpackT R w with ⟨o, _ | v⟩ <;> rw [hx] at h1 <;> simp only at h1 ⊢
    · exact h1
    · rcases hy : unpackTL R ws with ⟨o', _ | vs⟩ <;> rw [hy] at h2 <;> simp only at h2 ⊢ <;> rw [h1, h2] <;> rfl
theorem unpackTM_quiet {R : RecvEnv} (hR : R.servesNone ["pickle", "ndarray"]) :
    ∀ m : List (Wire × Wire), Wire.quietM ["pickle", "ndarray"] m = true → (unpackTM R m).1 = [] ∧
      ∀ d, (unpackTM R m).2 = .ok d → ∀ e ∈ d, e.2.notText ["pickle", "ndarray"]
  | [], _ => ⟨rfl, fun d h => by cases h; simp⟩
  | (k, w) :: r, hq => by
    simp only [Wire.quietM, Bool.and_eq_true, Bool.not_eq_true'] at hq
    have h0 := (unpackT_quiet hR k hq.1.1.1).1
    have h1 := unpackT_quiet hR w hq.1.1.2
    have h1' := h1.2 hq.1.2
    have h2 := unpackTM_quiet hR r hq.2
    simp only [unpackTM]
    rcases hx : unpackT R k with ⟨o, _ | kv⟩ <;> rw [hx] at h0 <;> simp only at h0 ⊢
    · exact ⟨h0, fun d h => by cases h⟩
    · split
      · exact ⟨h0, fun d h => by cases h⟩
      · rcases hy : unpackT R w with ⟨o', _ | v⟩ <;> rw [hy] at h1 h1' <;> simp only at h1 h1' ⊢
        · exact ⟨by rw [h0, h1.1]; rfl, fun d h => by cases h⟩
        · rcases hz : unpackTM R r with ⟨o'', _ | d'⟩ <;> rw [hz] at h2 <;> simp only at h2 ⊢
          · exact ⟨by rw [h0, h1.1, h2.1]; rfl, fun d h => by cases h⟩
          · refine ⟨by rw [h0, h1.1, h2.1]; rfl, fun d h => ?_⟩
            cases h
            intro e he
            rcases List.mem_cons.1 he with rfl | he
            · exact h1' v rfl
            · exact h2.2 d' rfl e he
end

mutual
theorem junpackT_quiet {R : RecvEnv} (hR : R.servesNone ["pickle"]) :
    ∀ w : Wire, w.quiet ["pickle"] = true → (junpackT R w).1 = [] ∧
      (w.isText ["pickle"] = false → ∀ v, (junpackT R w).2 = .ok v → v.notText ["pickle"])
  | .nil, _ | .bool _, _ | .int _, _ | .float _, _ => by
    refine ⟨rfl, fun _ v h => ?_⟩
    cases h; exact notText_of rfl
  | .bin _, _ => ⟨rfl, fun _ v h => by cases h⟩
  | .str s, _ => by
    refine ⟨rfl, fun hs v h => ?_⟩
    cases h
    intro x hx hc
    have : s = x := by simpa [Val.text?, Val.core] using hc
    subst this
    simp [Wire.isText] at hs
    simp [hs] at hx
  | .arr l, hq => by
    have h1 := junpackTL_quiet hR l (by simpa [Wire.quiet] using hq)
    simp only [junpackT]
    rcases hx : junpackTL R l with ⟨o, _ | vs⟩ <;> rw [hx] at h1 <;> simp only at h1 ⊢
    · exact ⟨h1, fun _ v h => by cases h⟩
    · exact ⟨h1, fun _ v h => by cases h; exact notText_of rfl⟩
  | .map m, hq => by
    have h1 := junpackTM_quiet hR m (by simpa [Wire.quiet] using hq)
    simp only [junpackT]
    rcases hx : junpackTM R m with ⟨o, _ | d⟩ <;> rw [hx] at h1 <;> simp only at h1 ⊢
    · exact ⟨h1.1, fun _ v h => by cases h⟩
    · have h2 := dictOf_values (h1.2 d rfl)
      refine ⟨by rw [h1.1, jdecodeRuns_quiet h2]; rfl, fun _ v h => ?_⟩
      exact jdecode_notText hR (tag_notText h2 "pickle" (by simp)) h
theorem junpackTL_quiet {R : RecvEnv} (hR : R.servesNone ["pickle"]) :
    ∀ l : List Wire, Wire.quietL ["pickle"] l = true → (junpackTL R l).1 = []
  | [], _ => rfl
  | w :: ws, hq => by
    simp only [Wire.quietL, Bool.and_eq_true] at hq
    have h1 := (junpackT_quiet hR w hq.1).1
    have h2 := junpackTL_quiet hR ws hq.2
    simp only [junpackTL]
    rcases hx : junpackT R w with ⟨o, _ | v⟩ <;> rw [hx] at h1 <;> simp only at h1 ⊢
    · exact h1
    · rcases hy : junpackTL R ws with ⟨o', _ | vs⟩ <;> rw [hy] at h2 <;> simp only at h2 ⊢ <;> rw [h1, h2] <;> rfl
theorem junpackTM_quiet {R : RecvEnv} (hR : R.servesNone ["pickle"]) :
    ∀ m : List (Wire × Wire), Wire.quietM ["pickle"] m = true → (junpackTM R m).1 = [] ∧
      ∀ d, (junpackTM R m).2 = .ok d → ∀ e ∈ d, e.2.notText ["pickle"]
  | [], _ => ⟨rfl, fun d h => by cases h; simp⟩
  | (k, w) :: r, hq => by
    simp only [Wire.quietM, Bool.and_eq_true, Bool.not_eq_true'] at hq
    have h1 := junpackT_quiet hR w hq.1.1.2
    have h1' := h1.2 hq.1.2
    have h2 := junpackTM_quiet hR r hq.2
    cases k
    case str k =>
      simp only [junpackTM]
      rcases hy : junpackT R w with ⟨o', _ | v⟩ <;> rw [hy] at h1 h1' <;> simp only at h1 h1' ⊢
      · exact ⟨h1.1, fun d h => by cases h⟩
      · rcases hz : junpackTM R r with ⟨o'', _ | d'⟩ <;> rw [hz] at h2 <;> simp only at h2 ⊢
        · exact ⟨by rw [h1.1, h2.1]; rfl, fun d h => by cases h⟩
        · refine ⟨by rw [h1.1, h2.1]; rfl, fun d h => ?_⟩
          cases h
          intro e he
          rcases List.mem_cons.1 he with rfl | he
          · exact h1' v rfl
          · exact h2.2 d' rfl e he
    all_goals exact ⟨rfl, fun d h => by cases h⟩
end

theorem jdecodeRuns_pickle (d : List (Val × Val)) (s : String) : .exec s ∉ jdecodeRuns d := by
  unfold jdecodeRuns decodeRuns
  generalize (lookupStr d encodeKey).bind Val.text? = x
  split
  · simp
  · simp
  · split
    · rename_i hx _; exact absurd rfl hx
    · split <;> simp
    · simp

mutual
theorem junpackT_noExec (R : RecvEnv) (s : String) : ∀ w, .exec s ∉ (junpackT R w).1
  | .nil | .bool _ | .int _ | .float _ | .str _ | .bin _ => by simp [junpackT]
  | .arr l => by
    have := junpackTL_noExec R s l
    simp only [junpackT]
    rcases hx : junpackTL R l with ⟨o, _ | vs⟩ <;> rw [hx] at this <;> exact this
  | .map m => by
    have := junpackTM_noExec R s m
    simp only [junpackT]
    rcases hx : junpackTM R m with ⟨o, _ | d⟩ <;> rw [hx] at this
    · exact this
    · exact fun h => (List.mem_append.1 h).elim this (jdecodeRuns_pickle _ s)
theorem junpackTL_noExec (R : RecvEnv) (s : String) : ∀ l, .exec s ∉ (junpackTL R l).1
  | [] => by simp [junpackTL]
  | w :: ws => by
    have h1 := junpackT_noExec R s w
    have h2 := junpackTL_noExec R s ws
    simp only [junpackTL]
    rcases hx : junpackT R w with ⟨o, _ | v⟩ <;> rw [hx] at h1
    · exact h1
    · rcases hy : junpackTL R ws with ⟨o', _ | vs⟩ <;> rw [hy] at h2 <;>
        exact fun h => (List.mem_append.1 h).elim h1 h2
theorem junpackTM_noExec (R : RecvEnv) (s : String) : ∀ m, .exec s ∉ (junpackTM R m).1
  | [] => by simp [junpackTM]
  | (k, w) :: r => by
    have h1 := junpackT_noExec R s w
    have h2 := junpackTM_noExec R s r
    cases k
    case str k =>
      simp only [junpackTM]
      rcases hx : junpackT R w with ⟨o, _ | v⟩ <;> rw [hx] at h1
      · exact h1
      · rcases hy : junpackTM R r with ⟨o', _ | vs⟩ <;> rw [hy] at h2 <;>
          exact fun h => (List.mem_append.1 h).elim h1 h2
    all_goals simp [junpackTM]
end

end Verif
