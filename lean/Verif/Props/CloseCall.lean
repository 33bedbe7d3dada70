import Verif.Model.CloseCall
import Verif.Props.Disconnected
import Verif.Props.Connect
import Verif.Props.Details
/-!
# C107: `RPCServer.close()` from any thread
-/
namespace Verif

section
variable {K : Codec} {L : Lib} {idOf : Obj → Nat} {addr : String} {tys : List Ty} {self : Val} {sers : Bytes → Ser} {es : List SEv}

/-- The message that asks a server to close. -/
def closeMsg (K : Codec) (ser : Ser) (k : Nat) : List Bytes := [K.num k, K.text "close", K.text "auto", K.text ser.name, []]

/-- how a close request is sent -/
theorem close_sent {K : Codec} {E : SendEnv} {t t' : Refs} {c c' : Cli} {m : Option (List Bytes)} {r : Sent} (h : c.send K E t "close" none "auto" "sync" = (t', c', m, .ok r)) :
    ∃ k, r = .wait k ∧ m = some (closeMsg K c.ser k) := by
  unfold Cli.send at h
  split at h
  · simp at h
  · simp only [show ¬ ("sync" = "off") by decide, if_false] at h
    split at h
    · simp at h
    · simp only [show ¬ ("sync" = "async") by decide, if_false, if_true, Prod.mk.injEq, Except.ok.injEq] at h
      obtain ⟨_, _, rfl, rfl⟩ := h
      refine ⟨_, rfl, ?_⟩
      simp [closeMsg]

/-- what `checkDisconnected` leaves alone -/
theorem receiveAll_ser (P : CliEnv) : ∀ (ws : List Wire) (c : Cli), (c.receiveAll P ws).1.ser = c.ser
  | [], c => by unfold Cli.receiveAll; split <;> rfl
  | w :: ws, c => by
    have h := (receive_const P c w).2.1
    unfold Cli.receiveAll
    generalize c.receive P w = y at h
    obtain ⟨c1, r⟩ := y
    split
    · rename_i heq; cases heq; exact (receiveAll_ser P ws _).trans h
    · rename_i heq; cases heq; exact h
    · rename_i heq; cases heq; exact h

theorem checkDisconnected_ser (P : CliEnv) (c : Cli) (ws : List Wire) : (c.checkDisconnected P ws).1.ser = c.ser := by
  have h := receiveAll_ser P ws c
  unfold Cli.checkDisconnected
  split
  · rfl
  · generalize c.receiveAll P ws = y at h
    obtain ⟨c1, l, r⟩ := y
    split <;> (rename_i heq; cases heq; exact h)

/-- **C107 (partial)** If `close()` returns in a thread whose client is `n`, then the server was closed when it was called, or one close request was sent and answered with a value, and in
every run in which `n` sends this request and has this answer the server was closed. Missing: the client's socket must be open (see C106), and `close()` may raise, see `C107_fails`. -/
theorem C107_returns_partial (W : World K L idOf (Srv.init addr tys self) sers es) {n : Bytes} {P : CliEnv} (hR : Reads L addr P.recv)
    {ws rest : List (Ser × Wire)} (hz : ∀ p ∈ ws, (sers n).loads P.recv p.2 ≠ .error .zmqError)
    (hd : ((Sys.init (Srv.init addr tys self) sers).run K es).down n = ws ++ rest)
    (ho : (((Sys.init (Srv.init addr tys self) sers).run K es).cli n).sockOpen = true) {E : SendEnv} {t : Refs} {start : Int} {ts : List Turn} {c' : Option Cli} {m : Option (List Bytes)}
    (h : serverClose K E t P (.ok (((Sys.init (Srv.init addr tys self) sers).run K es).cli n)) (ws.map (·.2)) start ts = (c', m, .returned)) :
    ((Sys.init (Srv.init addr tys self) sers).run K es).srv.closed = true ∧ m = none ∨
    ∃ k c v, c' = some c ∧ m = some (closeMsg K (sers n) k) ∧ c.fut k = some (.value v) ∧
      ∀ es', World K L idOf (Srv.init addr tys self) sers es' → (⟨k, "close", "auto", sers n, none⟩ : Asked) ∈ (Sys.init (Srv.init addr tys self) sers).asked K es' n →
        (((Sys.init (Srv.init addr tys self) sers).run K es').cli n).fut k = some (.value v) →
        ((Sys.init (Srv.init addr tys self) sers).run K es').srv.closed = true := by
  have hT := C106_close_server_partial W hR hz hd ho E t "auto" "sync"
  have hser : (((Sys.init (Srv.init addr tys self) sers).run K es).cli n).ser = sers n := by rw [sys_run_ser]; rfl
  have hck := checkDisconnected_ser P (((Sys.init (Srv.init addr tys self) sers).run K es).cli n) (ws.map (·.2))
  simp only [serverClose, Cli.closeServerSync] at h
  generalize hy : (((Sys.init (Srv.init addr tys self) sers).run K es).cli n).closeServer K E t P (ws.map (·.2)) "auto" "sync" = y at h hT
  unfold Cli.closeServer at hy
  generalize (((Sys.init (Srv.init addr tys self) sers).run K es).cli n).checkDisconnected P (ws.map (·.2)) = z at hy hck
  obtain ⟨c1, ws1, r1⟩ := z
  simp only [hser] at hck
  cases r1 with
  | error e => simp only at hy; subst hy; simp at h
  | ok b =>
    cases b with
    | true =>
      simp only at hy
      subst hy
      simp only [Prod.mk.injEq, Option.some.injEq] at h
      exact .inl ⟨hT rfl, h.2.1.symm⟩
    | false =>
      simp only at hy
      generalize hs : c1.send K E t "close" none "auto" "sync" = x at hy
      obtain ⟨t1, c2, m1, r2⟩ := x
      cases r2 with
      | error e => simp only at hy; subst hy; simp at h
      | ok r =>
        obtain ⟨k, rfl, rfl⟩ := close_sent hs
        simp only at hy
        subst hy
        simp only at h
        generalize hres : c2.result K k start (some closeTimeout) ts = q at h
        obtain ⟨c3, r3, ts3⟩ := q
        cases r3 with
        | none => simp at h
        | some r3 =>
          cases r3 with
          | value v =>
            simp only [Prod.mk.injEq, and_true] at h
            obtain ⟨rfl, rfl⟩ := h
            exact .inr ⟨k, c3, v, rfl, by rw [hck], result_value hres, fun es' W' hq hf => C106_answer W' hq rfl rfl hf⟩
          | _ => simp at h

end

/-- **C107** Whatever happens, `close()` sends at most one message, and this asks the server to close. -/
theorem C107_message (K : Codec) (E : SendEnv) (t : Refs) (P : CliEnv) (c : Cli) (inbox : List Wire) (start : Int) (ts : List Turn) :
    (serverClose K E t P (.ok c) inbox start ts).2.1 = none ∨ ∃ k, (serverClose K E t P (.ok c) inbox start ts).2.1 = some (closeMsg K c.ser k) := by
  have hck := checkDisconnected_ser P c inbox
  simp only [serverClose, Cli.closeServerSync, Cli.closeServer]
  generalize c.checkDisconnected P inbox = z at hck
  obtain ⟨c1, ws1, r1⟩ := z
  simp only at hck
  cases r1 with
  | error e => exact .inl rfl
  | ok b =>
    cases b with
    | true => exact .inl rfl
    | false =>
      simp only
      generalize hs : c1.send K E t "close" none "auto" "sync" = x
      obtain ⟨t1, c2, m1, r2⟩ := x
      cases r2 with
      | error e =>
        have : m1 = none := by
          unfold Cli.send at hs
          split at hs
          · simp at hs; exact hs.2.2.1.symm
          · simp only [show ¬ ("sync" = "off") by decide, if_false] at hs
            split at hs
            · simp at hs; exact hs.2.2.1.symm
            · simp [show ¬ ("sync" = "async") by decide] at hs
        exact .inl this
      | ok r =>
        obtain ⟨k, rfl, rfl⟩ := close_sent hs
        refine .inr ⟨k, ?_⟩
        simp only
        generalize c2.result K k start (some closeTimeout) ts = q
        obtain ⟨c3, r3, ts3⟩ := q
        rw [← hck]
        cases r3 with
        | none => rfl
        | some r3 => cases r3 <;> rfl

/-- **C107** (again) In a thread whose client knows that the server has closed, `close()` may be called any number of times: it returns, sends nothing and changes nothing. -/
theorem C107_again (K : Codec) (E : SendEnv) (t : Refs) (P : CliEnv) (c : Cli) (h : c.disconnected = true) (inbox : List Wire) (start : Int) (ts : List Turn) :
    serverClose K E t P (.ok c) inbox start ts = (some c, none, .returned) := by
  simp [serverClose, Cli.closeServerSync, Cli.closeServer, Cli.checkDisconnected, h]

/-- **C107 fails** ("This method is thread-safe"): in a thread that has no client for it, closing a server raises ConnectionRefusedError if it has closed already, whatever else happens. In
a thread that has one, closing a server that nobody runs, or that is busy for a second, sends a close request and
raises TimeoutError: not before a second has passed, and as soon as one has. -/
theorem C107_fails (K : Codec) (E : SendEnv) (t : Refs) (P : CliEnv) (v : CtorEnv) (c : Cli) (inbox : List Wire) (start : Int) (ts : List Turn) :
    (v.address = .ok (some "closed") → serverClose K E t P (getClient none v c) inbox start ts = (none, none, .raised (.exc .connectionRefused))) ∧
    (c.disconnected = false → c.sockOpen = true → ∀ quiet : List (Int × Int), (∀ x ∈ quiet, x.1 ≤ start + 1000000000) →
      (serverClose K E t P (getClient (some c) v c) [] start (quiet.map fun x => .idle x.1 x.2)).2 = (some (closeMsg K c.ser c.nextId), .waiting) ∧
      ∀ now after : Int, start + 1000000000 < now →
        ∃ c', serverClose K E t P (getClient (some c) v c) [] start ((quiet.map fun x => .idle x.1 x.2) ++ .idle now after :: ts) =
          (some c', some (closeMsg K c.ser c.nextId), .raised (.exc .timeoutError))) := by
  constructor
  · intro h
    simp [getClient, Place.construct, CtorEnv.body, h, bind, Except.bind, serverClose, throw, throwThe, MonadExceptOf.throw]
  · intro hd ho quiet hq
    obtain ⟨name, ser, nextId, table, futs, disc, sock⟩ := c
    simp only at hd ho
    subst hd ho
    have hp : (⟨name, ser, nextId + 1, table.set nextId true, futs.set nextId .pending, false, true⟩ : Cli).done nextId = false := by
      simp [Cli.done, Dict.get?_set]
    have ht : (1000000000 : Int) = closeTimeout := by decide
    rw [ht] at hq ⊢
    obtain ⟨h1, h2⟩ := (C33_gives_up K nextId start _ hp quiet).1 closeTimeout hq
    refine ⟨?_, fun now after hn => ?_⟩
    · generalize hw : (⟨name, ser, nextId + 1, table.set nextId true, futs.set nextId .pending, false, true⟩ : Cli).waitFor K nextId start (some closeTimeout) (quiet.map fun x => .idle x.1 x.2) = w at h1
      obtain ⟨c1, o, r⟩ := w
      simp only at h1
      subst h1
      simp [getClient, serverClose, Cli.closeServerSync, Cli.closeServer, Cli.checkDisconnected, Cli.receiveAll, Cli.send, Cli.result, hw, closeMsg]
    · have := h2 now after ts hn
      refine ⟨⟨name, ser, nextId + 1, table.set nextId true, futs.set nextId .pending, false, true⟩, ?_⟩
      simp [getClient, serverClose, Cli.closeServerSync, Cli.closeServer, Cli.checkDisconnected, Cli.receiveAll, Cli.send, Cli.result, this, closeMsg]

/-- **C107** (the client used) `close()` uses the client its thread has; without one it makes one, with the default serializer, which succeeds if the server can be reached and answers. It is never
without a client, so that the server is never closed directly. -/
theorem C107_client (v : CtorEnv) (c d : Cli) : getClient (some d) v c = .ok d ∧
    (v.address ≠ .ok (some "closed") → (∃ p, v.address = .ok p) → v.reentrant = true → v.zmq = .ok () → getClient none v c = match v.ensure with | .ok () => .ok c | .error e => .error e) := by
  refine ⟨rfl, ?_⟩
  rintro h1 ⟨p, h2⟩ h3 h4
  have h5 : p ≠ some "closed" := fun h => h1 (by rw [h2, h])
  have h6 : v.body "msgpack" = v.ensure := by
    simp [CtorEnv.body, h2, h3, h4, h5, bind, Except.bind, pure, Except.pure, serOf]
  simp only [getClient, Place.construct, Bool.false_and, Bool.false_eq_true, if_false, h6]
  cases v.ensure <;> rfl

/-- When the process exits, a server that was closed is left alone; for one that was not, a warning is logged and it is closed as by `close()`. -/
theorem atExit_spec (closed : Bool) (r : Option Cli × Option (List Bytes) × CloseEnd) :
    (closed = true → atExit closed r = (false, none)) ∧ (closed = false → atExit closed r = (true, some r)) := by
  cases closed <;> simp [atExit]

namespace Ex

/-- C107: A closes the server in the run of C106's example, in which the server was closed already: both messages are read, nothing is sent. -/
example : (match serverClose codec2 csend Refs.init cenv (.ok ((sys.run codec2 evsUnread).cli nA)) (((sys.run codec2 evsUnread).down nA).map (·.2)) 0 [] with
    | (some c, none, .returned) => c.disconnected
    | _ => false) = true := by decide +kernel
/-- C107: a new client closes the server; the answer is read in the first turn. -/
example : (match serverClose codec csend Refs.init cenv (.ok cli) [] 0 [.plain 0 (some (cenv, ret 0 (.bool true) .nil)) 5] with
    | (some c, some m, .returned) => c.disconnected && decide (m = closeMsg codec .msgpack 0)
    | _ => false) = true := by decide +kernel

end Ex

namespace Ex

/-- The first of these runs. -/
example : ∃ c' m, serverClose codec2 csend Refs.init cenv (.ok ((sys.run codec2 evsUnread).cli nA)) (((sys.run codec2 evsUnread).down nA).map (·.2)) 0 [] = (c', m, .returned) ∧
    ((sys.run codec2 evsUnread).srv.closed = true ∧ m = none ∨ ∃ k c v, c' = some c ∧ m = some (closeMsg codec2 (sers2 nA) k) ∧ c.fut k = some (.value v)) := by
  have h : (match serverClose codec2 csend Refs.init cenv (.ok ((sys.run codec2 evsUnread).cli nA)) (((sys.run codec2 evsUnread).down nA).map (·.2)) 0 [] with
    | (_, _, .returned) => true
    | _ => false) = true := by decide +kernel
  split at h
  · next c' m hs =>
    refine ⟨c', m, hs, ?_⟩
    rcases C107_returns_partial world_unread (P := cenv) (rest := []) ⟨rfl, by simp [cenv]⟩ (by
      have h : (((sys.run codec2 evsUnread).down nA).all fun p => match (sers2 nA).loads cenv.recv p.2 with
          | .ok _ => true
          | .error _ => false) = true := by decide +kernel
      intro p hp h1
      have := List.all_eq_true.1 h p hp
      simp only [h1] at this
      simp at this) (List.append_nil _).symm (by decide +kernel) hs with h | ⟨k, c, v, h1, h2, h3, -⟩
    · exact .inl h
    · exact .inr ⟨k, c, v, h1, h2, h3⟩
  · cases h

example := C107_again codec csend Refs.init cenv ((cli.run codec sends).1.step codec (.recv cenv disconnectWire)).1 rfl [] 0 []

end Ex

end Verif
