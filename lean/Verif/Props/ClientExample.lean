import Verif.Props.ClientWait
import Verif.Props.ServerExample
/-! # A concrete client, used to show that hypotheses can be met -/
namespace Verif.Ex

/-- The bytes of the names of `Ex.utf8`. -/
def text (s : String) : Bytes :=
  if s = "get_item" then [10] else if s = "set_item" then [11] else if s = "close" then [12] else if s = "call_obj" then [13]
  else if s = "ping" then [14] else if s = "get_obj" then [16] else if s = "auto" then [20] else if s = "proxy" then [21]
  else if s = "msgpack" then [30] else if s = "json" then [31] else []

/-- Encodings fitting `Ex.heap`. -/
def codec : Codec where
  text := text
  num i := if 0 ≤ i then [UInt8.ofNat i.toNat] else [0, UInt8.ofNat (-i).toNat]
  tree _ w := match w with
    | .map [(.str "name", .str "x")] => [1]
    | .map [(.str "name", .str "x"), (.str "obj", .int 5)] => [2]
    | _ => [9]

/-- What the client's process contributes. -/
def cenv : CliEnv := ⟨⟨lib, none⟩, fun _ => .error .typeError, fun _ => .error .typeError⟩
/-- The client's process as sender: it has no server. -/
def csend : SendEnv := ⟨lib, none, fun o => o, fun _ => 0, fun _ => "", defaultTypes⟩

/-- A reply. -/
def ret (k : Int) (rval error : Wire) : Wire :=
  .map [(.str "action", .str "return"), (.str "req_id", .int k), (.str "rval", rval), (.str "error", error)]

/-- `client.get_item('x')` asynchronously -/
def sendGet (sync : String) : CEv := .send csend Refs.init "get_item" (some (.dict [(.str "name", .str "x")])) "auto" sync

/-- Requests 0 (a name), one without reply, 1 (close), 2 (a name). -/
def sends : List CEv := [sendGet "async", .send csend Refs.init "ping" none "auto" "off", .send csend Refs.init "close" none "auto" "async",
  sendGet "sync"]

/-- The client. -/
def cli : Cli := Cli.init [65] .msgpack

/-- C26: the messages transmitted and their ids. -/
example : (cli.log codec sends).map (fun p => (p.1, p.2.head?)) = [("async", some [0]), ("off", some [0, 1]), ("async", some [1]), ("sync", some [2])] := by
  decide +kernel

/-- All three futures are pending and in the table. -/
example : (cli.run codec sends).1.table = [(0, false), (1, true), (2, false)] ∧ (cli.run codec sends).1.fut 0 = some .pending ∧
    (cli.run codec sends).1.fut 1 = some .pending ∧ (cli.run codec sends).1.fut 2 = some .pending := by
  refine ⟨by decide +kernel, rfl, rfl, rfl⟩

/-- C27: a reply with a value sets its own future only; a duplicate and a reply to an unknown request change
nothing. -/
example : let c := ((cli.run codec sends).1.run codec [.recv cenv (ret 0 (.int 5) .nil), .recv cenv (ret 0 (.int 6) .nil), .recv cenv (ret 77 (.int 6) .nil)]).1
    c.fut 0 = some (.value (.int 5)) ∧ c.fut 1 = some .pending ∧ c.fut 2 = some .pending := ⟨rfl, rfl, rfl⟩

/-- C27: the hypotheses of the theorems, with what the reply says. -/
example : (cli.run codec sends).1.reads cenv (ret 0 (.int 5) .nil) [(.str "action", .str "return"), (.str "req_id", .int 0), (.str "rval", .int 5), (.str "error", .none)] ∧
    IsReply cenv [(.str "action", .str "return"), (.str "req_id", .int 0), (.str "rval", .int 5), (.str "error", .none)] 0 ∧
    Says cenv [(.str "action", .str "return"), (.str "req_id", .int 0), (.str "rval", .int 5), (.str "error", .none)] (.value (.int 5)) :=
  ⟨rfl, ⟨rfl, .int 0, rfl, rfl⟩, rfl, rfl⟩

/-- C27: an error reply gives RemoteCallException. -/
example : ((cli.run codec sends).1.step codec (.recv cenv (ret 2 .nil (.arr [.str "KeyError", .arr [.str "Traceback"]])))).1.fut 2 =
      some (.remote (.str "KeyError") (.list [.str "Traceback"])) := rfl

/-- C28: a done future keeps its outcome through a disconnect. -/
example : (((cli.run codec sends).1.run codec [.recv cenv (ret 0 (.int 5) .nil)]).1.run codec [.recv cenv (ret 0 (.int 6) .nil), .recv cenv disconnectWire]).1.fut 0
    = some (.value (.int 5)) := rfl

/-- C29: the reply True to the close request: the hypotheses are met, the close future holds True, the others raise. -/
example : Tells cenv (cli.run codec sends).1 (ret 1 (.bool true) .nil) :=
  ⟨[(.str "action", .str "return"), (.str "req_id", .int 1), (.str "rval", .bool true), (.str "error", .none)], rfl,
    .inr ⟨1, ⟨rfl, .int 1, rfl, rfl⟩, ⟨rfl, rfl⟩, rfl⟩⟩
example : let c := ((cli.run codec sends).1.step codec (.recv cenv (ret 1 (.bool true) .nil))).1
    c.fut 0 = some .gone ∧ c.fut 1 = some (.value (.bool true)) ∧ c.fut 2 = some .gone ∧ c.disconnected = true := ⟨rfl, rfl, rfl, rfl⟩
example : Tells cenv (cli.run codec sends).1 disconnectWire := ⟨[(.str "action", .str "disconnect")], rfl, .inl rfl⟩

/-- C29 needs messages a server sends: a reply without the field `error` takes the future out of the table without
setting it, and it stays pending after the disconnect. -/
example : let c := ((cli.run codec sends).1.run codec [.recv cenv (.map [(.str "action", .str "return"), (.str "req_id", .int 0)]), .recv cenv disconnectWire]).1
    c.disconnected = true ∧ c.fut 0 = some .pending ∧ c.table = [] := ⟨rfl, rfl, rfl⟩

/-- C29: the other hypothesis. -/
example : ServerMsgs cli sends := by
  intro P w v h; simp [sends, sendGet] at h

/-- C30: an object that can be sent neither by value nor by proxy (there is no local server). -/
example : (cli.ser.dumps csend Refs.init (.dict [(.str "obj", .obj 7 [.user 1])])).2 = .error .typeError := rfl

/-- C31: a request with sync 'now' is sent. -/
example : (cli.send codec csend Refs.init "get_item" (some (.dict [(.str "name", .str "x")])) "auto" "now").2.2 =
    (some [[0], [10], [20], [30], [1]], .error .valueError) := rfl

/-- C32: a pending future with its reply in the socket; `disconnected()` sees it. -/
example : Cli.polls 0 ((cli.run codec sends).1, [ret 0 (.int 5) .nil]) 4 = [false, false, false, false] ∧
    ((cli.run codec sends).1.checkDisconnected cenv [ret 0 (.int 5) .nil]).1.done 0 = true := ⟨by decide +kernel, rfl⟩

/-- the reply is a message a server sends -/
theorem ret_serverMsg (k : Int) : ServerMsg [(.str "action", .str "return"), (.str "req_id", .int k), (.str "rval", .int 5), (.str "error", .none)] :=
  .inr ⟨rfl, ⟨k, rfl⟩, ⟨.int 5, rfl⟩, .inl rfl⟩

/-- C33: waiting 2.5 ms for request 0 while a reply to request 2 arrives: TimeoutError at 2 ms after the second wait,
0.5 ms early. -/
example : let ts : List Turn := [.plain 1000 (some (cenv, ret 2 (.int 5) .nil)) 400000, .plain 500000 none 1500000]
    ((cli.run codec sends).1.waitFor codec 0 0 (some 2499999) ts).2.1 = .raised .timeoutError 1500000 ∧
    ∀ t ∈ ts, t.Fair 0 (some 2499999) := by
  refine ⟨by decide +kernel, ?_⟩
  intro t ht
  simp only [List.mem_cons, List.not_mem_nil, or_false] at ht
  rcases ht with rfl | rfl
  · exact ⟨by decide, by decide, trivial⟩
  · exact ⟨by decide, by decide, 2499999, rfl, by decide⟩

/-- C33: the reply arrives after another one and after serving a request in between. -/
example : let ts : List Turn := [.readable 1000 cenv (ret 2 (.int 5) .nil) 400000, .serve 500000 [sendGet "async"] (.ok ()) 600000,
      .plain 700000 (some (cenv, ret 0 (.int 6) .nil)) 800000, .idle 900000 950000]
    ((cli.run codec sends).1.waitFor codec 0 0 none ts).2 = (.returned, [.idle 900000 950000]) := rfl

/-! ## The theorems on these cases -/

/-- The reply with the value 5 to request `k`, as read. -/
def retFields (k : Int) : List (Val × Val) := [(.str "action", .str "return"), (.str "req_id", .int k), (.str "rval", .int 5), (.str "error", .none)]

theorem sends_serverMsgs : ServerMsgs cli sends := by
  intro P w v h; simp [sends, sendGet] at h

theorem closed_tells : Tells cenv (cli.run codec sends).1 (ret 1 (.bool true) .nil) :=
  ⟨[(.str "action", .str "return"), (.str "req_id", .int 1), (.str "rval", .bool true), (.str "error", .none)], rfl,
    .inr ⟨1, ⟨rfl, .int 1, rfl, rfl⟩, ⟨rfl, rfl⟩, rfl⟩⟩

example := C27_own_reply_only codec [65] .msgpack sends (.recv cenv (ret 0 (.int 5) .nil)) 0 (.value (.int 5)) rfl rfl nofun
example := C27_others_unchanged codec [65] .msgpack sends cenv (ret 0 (.int 5) .nil) (retFields 0) 0 2 rfl ⟨rfl, .int 0, rfl, rfl⟩
  (by rintro ⟨k, -, ⟨-, h⟩, -⟩; cases h) (by decide)
example := C28_outcome_fixed codec [65] .msgpack (sends ++ [.recv cenv (ret 0 (.int 5) .nil)]) [.recv cenv (ret 0 (.int 6) .nil), .recv cenv disconnectWire] 0
  (.value (.int 5)) rfl nofun (by simp)
example := C27_reply_sets codec [65] .msgpack sends cenv (ret 0 (.int 5) .nil) (retFields 0) 0 (.value (.int 5)) sends_serverMsgs rfl rfl ⟨rfl, .int 0, rfl, rfl⟩ ⟨rfl, rfl⟩ rfl
example := C29_disconnect_ends_futures codec [65] .msgpack sends cenv (ret 1 (.bool true) .nil) sends_serverMsgs rfl closed_tells 2 rfl
example := C29_later_sends_fail codec [65] .msgpack sends [sendGet "sync"] cenv (ret 1 (.bool true) .nil) rfl closed_tells
example := C30_unserializable codec csend Refs.init _ cli "set_item" (.dict [(.str "obj", .obj 7 [.user 1])]) "auto" "sync" .typeError rfl rfl
example := C30_no_trace codec csend Refs.init _ cli "set_item" (.dict [(.str "obj", .obj 7 [.user 1])]) "auto" "sync" .typeError rfl rfl
example := C31_invalid_sync_is_sent codec csend Refs.init _ cli "get_item" (.dict [(.str "name", .str "x")]) "auto" "now" (.map [(.str "name", .str "x")]) rfl rfl rfl
  (by decide) (by decide) (by decide)
example := C31_invalid_sync_raises_partial codec csend Refs.init cli "get_item" (some (.dict [(.str "name", .str "x")])) "auto" "now" (by decide) (by decide) (by decide)

example := C32_done_never_reads 0 (cli.run codec sends).1 [ret 0 (.int 5) .nil] rfl
example := C32_reading_sees_reply_partial codec [65] .msgpack sends cenv [ret 2 (.int 5) .nil] [] (ret 0 (.int 5) .nil) 0 _ rfl sends_serverMsgs rfl rfl rfl
  (by
    intro w hw
    simp only [List.cons_append, List.nil_append, List.mem_cons, List.not_mem_nil, or_false] at hw
    rcases hw with rfl | rfl
    · exact ⟨retFields 2, rfl, ret_serverMsg 2⟩
    · exact ⟨retFields 0, rfl, ret_serverMsg 0⟩)
  ⟨retFields 0, rfl, rfl, .int 0, rfl, rfl⟩

/-- Waiting 2.5 ms for request 0. -/
example := C33_not_early codec 0 0 2499999 [.plain 1000 (some (cenv, ret 2 (.int 5) .nil)) 400000, .plain 500000 none 1500000] (cli.run codec sends).1
  (by
    intro t ht
    simp only [List.mem_cons, List.not_mem_nil, or_false] at ht
    rcases ht with rfl | rfl
    · exact ⟨by decide, by decide, trivial⟩
    · exact ⟨by decide, by decide, 2499999, rfl, by decide⟩)
  (by
    intro P w c' now after h
    simp only [List.mem_cons, List.not_mem_nil, or_false, Turn.plain.injEq, Option.some.injEq, Prod.mk.injEq, reduceCtorEq, and_false, false_and] at h
    obtain ⟨rfl, ⟨rfl, rfl⟩, rfl⟩ := h
    by_cases ho : c'.sockOpen = true
    · by_cases hs : c'.ser = .msgpack
      · rw [receive_serverMsg (d := retFields 2) ho (by show c'.ser.loads _ _ = _; rw [hs]; rfl) (ret_serverMsg 2)]; nofun
      · have hs : c'.ser = .json := by cases h : c'.ser <;> simp_all
        rw [receive_serverMsg (d := retFields 2) ho (by show c'.ser.loads _ _ = _; rw [hs]; rfl) (ret_serverMsg 2)]; nofun
    · simp [Cli.receive, ho])
  (by simp) (by simp) 1500000 rfl
example : ((cli.run codec sends).1.waitFor codec 0 100 (some 50) [.idle 110 130, .idle 130 150, .idle 150 160, .idle 160 170]).2.1 = .raised .timeoutError 160 :=
  (C33_nothing_comes codec 0 100 50 (cli.run codec sends).1 rfl [(110, 130), (130, 150), (150, 160), (160, 170)]).2
example := C33_done_returns codec 0 0 (some 5) [.idle 0 1] ((cli.run codec sends).1.step codec (.recv cenv (ret 0 (.int 5) .nil))).1 rfl
example := C33_returns_at_once codec 0 0 none [.readable 1000 cenv (ret 2 (.int 5) .nil) 400000, .serve 500000 [sendGet "async"] (.ok ()) 600000,
  .plain 700000 (some (cenv, ret 0 (.int 6) .nil)) 800000, .idle 900000 950000] (cli.run codec sends).1 _ [.idle 900000 950000] rfl
example := C33_reply_in_time codec [65] .msgpack sends 0 0 (some 5000000) _ rfl sends_serverMsgs rfl rfl
  [(.readable 1000 cenv (ret 2 (.int 5) .nil) 400000, cenv, ret 2 (.int 5) .nil)] (.plain 700000 (some (cenv, ret 0 (.int 5) .nil)) 800000) [.idle 900000 950000]
  cenv (ret 0 (.int 5) .nil)
  (by
    intro x hx
    simp only [List.mem_cons, List.not_mem_nil, or_false] at hx
    subst hx
    exact ⟨by decide, ⟨retFields 2, rfl, ret_serverMsg 2⟩, .inr ⟨_, _, rfl⟩⟩)
  ⟨by decide, ⟨retFields 0, rfl, ret_serverMsg 0⟩, .inl ⟨_, _, rfl⟩⟩ ⟨retFields 0, rfl, rfl, .int 0, rfl, rfl⟩

end Verif.Ex
