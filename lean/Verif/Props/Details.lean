import Verif.Props.ClientExample
import Verif.Props.ClientWait
import Verif.Props.Registry
import Verif.Props.ServerServe
import Verif.Props.ServerNames
import Verif.Props.ServerReply
import Verif.Props.Qt
import Verif.Props.QtServer
import Verif.Props.LogHandler
/-!
# Details

Properties that fix details other theorems leave open; most were found by changing the model in small ways and seeing which
changes nothing noticed.
-/
namespace Verif

/-! ## Clients -/

/-- **C32** `done()` is true exactly if the future has been given a value, an exception or a disconnection. -/
theorem C32_done_iff (c : Cli) (k : Nat) : c.done k = true ↔ ∃ f, c.fut k = some f ∧ f ≠ .pending := by
  unfold Cli.done Cli.fut
  cases c.futs.get? k with
  | none => simp
  | some f => cases f <;> simp

/-- Nothing was transmitted, and every call and every reading raised. -/
def Useless (os : List COut) : Prop :=
  ∀ o ∈ os, (∀ m, o ≠ .transmit m) ∧ (∀ r, o ≠ .sent (.ok r)) ∧ (∀ r, o ≠ .got (.ok r))

theorem send_closed {K : Codec} {E : SendEnv} {t : Refs} {c : Cli} (hc : c.sockOpen = false) (a : String) (o : Option Val) (rt sy : String) :
    (c.send K E t a o rt sy).2.1.sockOpen = false ∧ (c.send K E t a o rt sy).2.2.1 = none ∧ ∃ e, (c.send K E t a o rt sy).2.2.2 = .error e := by
  unfold Cli.send
  split
  · exact ⟨hc, rfl, _, rfl⟩
  · have h1 : ∀ (c' : Cli), c' = (if sy = "off" then (c, (-1 : Int)) else ({ c with nextId := c.nextId + 1 }, (c.nextId : Int))).1 → c'.sockOpen = false := by
      intro c' h; subst h; split <;> exact hc
    dsimp only
    split
    · exact ⟨h1 _ rfl, rfl, _, rfl⟩
    · rw [if_pos (h1 _ rfl)]
      exact ⟨h1 _ rfl, rfl, _, rfl⟩

theorem disconnected_sock (c : Cli) : c.serverDisconnected.sockOpen = c.sockOpen := rfl

/-- **C40** A closed client is of no use any more: whatever happens to it later, it transmits nothing, and every request and every
attempt to read raises. -/
theorem C40_closed (K : Codec) (c : Cli) (es : List CEv) : Useless (c.close.run K es).2 := by
  suffices ∀ (es : List CEv) (c : Cli), c.sockOpen = false → Useless (c.run K es).2 from this es _ rfl
  intro es
  induction es with
  | nil => intro c _ o ho; cases ho
  | cons e es ih =>
    intro c hc
    have hstep : (c.step K e).1.sockOpen = false ∧ Useless (c.step K e).2 := by
      cases e with
      | send E t a o rt sy =>
        obtain ⟨h1, h2, e, h3⟩ := send_closed (K := K) (E := E) (t := t) hc a o rt sy
        simp only [Cli.step]
        refine ⟨h1, ?_⟩
        rw [h2, h3]
        intro o ho
        simp only [Option.map_none, Option.toList_none, List.nil_append, List.mem_singleton] at ho
        subst ho
        exact ⟨by simp, by simp, by simp⟩
      | recv P w =>
        simp only [Cli.step, Cli.receive, hc, if_true]
        refine ⟨trivial, ?_⟩
        intro o ho
        simp only [List.mem_singleton] at ho
        subst ho
        exact ⟨by simp, by simp, by simp⟩
      | drop k => exact ⟨hc, by intro o ho; cases ho⟩
      | close => exact ⟨rfl, by intro o ho; cases ho⟩
    intro o ho
    simp only [Cli.run, List.mem_append] at ho
    rcases ho with ho | ho
    · exact hstep.2 o ho
    · exact ih _ hstep.1 o ho

/-- **C40** A closed client counts as disconnected, whatever messages are left in its socket: `disconnected()` is true, and
`close_server()` returns without sending anything. From then on the client is marked as disconnected. -/
theorem C40_closed_disconnected (K : Codec) (E : SendEnv) (t : Refs) (P : CliEnv) (c : Cli) (inbox : List Wire) (rt sy : String) :
    (∃ c' ws, c.close.checkDisconnected P inbox = (c', ws, .ok true) ∧ c'.disconnected = true) ∧
    ∃ c' ws, c.close.closeServer K E t P inbox rt sy = (t, c', ws, none, .ok none) ∧ c'.disconnected = true := by
  have h : ∃ c' ws, c.close.checkDisconnected P inbox = (c', ws, .ok true) ∧ c'.disconnected = true := by
    unfold Cli.checkDisconnected
    split
    · rename_i hd; exact ⟨_, _, rfl, hd⟩
    · have : ∃ c' ws, c.close.receiveAll P inbox = (c', ws, .error .zmqError) := by
        cases inbox with
        | nil => exact ⟨_, _, rfl⟩
        | cons w ws => exact ⟨_, _, rfl⟩
      obtain ⟨c', ws, h⟩ := this
      rw [h]
      exact ⟨_, _, rfl, rfl⟩
  refine ⟨h, ?_⟩
  obtain ⟨c', ws, h, hd⟩ := h
  unfold Cli.closeServer
  rw [h]
  exact ⟨_, _, rfl, hd⟩

/-- **C106** `disconnected()` does not take back what it said: once it returned True the client is marked, it returns True ever after whatever arrives, and all requests raise RuntimeError. -/
theorem C106_stays (K : Codec) (E : SendEnv) (t : Refs) (P P' : CliEnv) (c : Cli) (inbox inbox' : List Wire) (h : (c.checkDisconnected P inbox).2.2 = .ok true)
    (a : String) (o : Option Val) (rt sy : String) :
    let c' := (c.checkDisconnected P inbox).1
    c'.checkDisconnected P' inbox' = (c', inbox', .ok true) ∧ (c'.send K E t a o rt sy).2.2 = (none, .error .runtimeError) := by
  have hd : (c.checkDisconnected P inbox).1.disconnected = true := by
    revert h
    unfold Cli.checkDisconnected
    split
    · rename_i hd; intro _; exact hd
    · split
      · rename_i c1 ws hr; intro h; simpa using h
      · intro _; rfl
      · intro h; cases h
  refine ⟨?_, ?_⟩
  · generalize (c.checkDisconnected P inbox).1 = c' at hd
    simp only [Cli.checkDisconnected, hd, if_true]
  · generalize (c.checkDisconnected P inbox).1 = c' at hd
    simp [Cli.send, hd]

/-- **C33** A wait during which nothing arrives ends with TimeoutError at the first look at the clock that is later than the time
allowed, and not before; without a timeout it does not end. -/
theorem C33_gives_up (K : Codec) (k : Nat) (start : Int) (c : Cli) (hp : c.done k = false) (quiet : List (Int × Int)) :
    (∀ T : Int, (∀ x ∈ quiet, x.1 ≤ start + T) →
      (c.waitFor K k start (some T) (quiet.map fun x => .idle x.1 x.2)).2.1 = .waiting ∧
      ∀ now after rest, start + T < now →
        c.waitFor K k start (some T) ((quiet.map fun x => .idle x.1 x.2) ++ .idle now after :: rest) = (c, .raised .timeoutError now, rest)) ∧
    (c.waitFor K k start none (quiet.map fun x => .idle x.1 x.2)).2.1 = .waiting := by
  refine ⟨fun T => ?_, ?_⟩
  · induction quiet with
    | nil =>
      intro _
      refine ⟨by simp [Cli.waitFor, hp], fun now after rest h => ?_⟩
      have hx : expired start (some T) now = true := by simp only [expired, decide_eq_true_eq]; omega
      simp [Cli.waitFor, hp, Turn.now, hx]
    | cons x q ih =>
      intro hq
      obtain ⟨i1, i2⟩ := ih (fun y hy => hq y (List.mem_cons_of_mem _ hy))
      have hx : expired start (some T) x.1 = false := by
        have := hq x (List.mem_cons_self ..)
        simp only [expired, decide_eq_false_iff_not]; omega
      refine ⟨?_, fun now after rest h => ?_⟩
      · simpa [Cli.waitFor, hp, Turn.now, hx, Cli.turn] using i1
      · simpa [Cli.waitFor, hp, Turn.now, hx, Cli.turn] using i2 now after rest h
  · induction quiet with
    | nil => simp [Cli.waitFor, hp]
    | cons x q ih => simpa [Cli.waitFor, hp, Turn.now, expired, Cli.turn] using ih

example : ({ Cli.init [65] .msgpack with futs := [(0, .pending)] } : Cli).done 0 = false := rfl
example : Useless [.sent (.error .zmqError)] ∧ ¬ Useless [.transmit []] :=
  ⟨by intro o ho; simp only [List.mem_singleton] at ho; subst ho; exact ⟨by simp, by simp, by simp⟩, fun h => (h _ (List.mem_singleton.2 rfl)).1 [] rfl⟩

/-! ## Registering servers -/

/-- The thread a server was last registered in, from what was observed. -/
def boundTo (s : Nat) (os : List RegOut) : Option Nat :=
  os.foldl (fun h o => match o with
    | .registered t s' (.ok ()) => if s' = s then some t else h
    | _ => h) none

theorem boundTo_append (s : Nat) (a b : List RegOut) : boundTo s (a ++ b) = b.foldl (fun h o => match o with
    | .registered t s' (.ok ()) => if s' = s then some t else h
    | _ => h) (boundTo s a) := by
  unfold boundTo; rw [List.foldl_append]

theorem thread_boundTo (es : List RegEv) (s : Nat) : (RegSt.run {} es).1.thread s = boundTo s (RegSt.run {} es).2 := by
  induction es using snoc_induction with
  | h0 => rfl
  | hs es e ih =>
    rw [reg_run_snoc]
    dsimp only
    rw [boundTo_append, ← ih]
    generalize (RegSt.run {} es).1 = σ
    cases e with
    | register t s' =>
      simp only [RegSt.step, RegSt.register]
      split
      · split
        · rename_i h
          by_cases hs : s' = s
          · subst hs; simp [h]
          · simp [hs]
        · split <;> rfl
      · rfl
    | unregister t s' =>
      simp only [RegSt.step]
      split <;> rfl
    | go t =>
      simp only [RegSt.step]
      split
      · rfl
      · simp only [RegSt.insert]; split <;> rfl
      · rename_i s' _
        by_cases hs : s' = s
        · simp [put, hs]
        · simp [put, hs, Ne.symm hs]
      · simp only [RegSt.leave]
        split
        · rfl
        · split
          · rfl
          · split <;> rfl
    | get t =>
      simp only [RegSt.step]
      split <;> rfl

/-- **C38** A server that was last registered in one thread cannot be registered in another one: AssertionError, and nothing changes. In its own thread
registering it again does nothing. -/
theorem C38_bound (es : List RegEv) (t s t' : Nat) (hidle : (RegSt.run {} es).1.pc t = .idle) (hb : boundTo s (RegSt.run {} es).2 = some t') :
    (RegSt.run {} es).1.step (.register t s) =
      ((RegSt.run {} es).1, [.registered t s (if t' = t then .ok () else .error .assertionError)]) := by
  rw [← thread_boundTo] at hb
  simp only [RegSt.step, hidle, if_true, RegSt.register, hb]
  by_cases h : t' = t
  · simp [h]
  · simp [h]

/-- **C38** Unregistering a server takes it out of the registry of the thread it was last registered in, if it is there; else it raises: KeyError if that thread has no
server (or the server was never registered), AssertionError if it has another one. -/
theorem C38_unregister (es : List RegEv) (t s : Nat) (hidle : (RegSt.run {} es).1.pc t = .idle) :
    ((RegSt.run {} es).1.run [.unregister t s, .go t]).2 =
      match (boundTo s (RegSt.run {} es).2).bind fun k => (holder k (RegSt.run {} es).2).map fun s' => (k, s') with
      | none => [.unregistered t s (.error .keyError)]
      | some (k, s') => if s' = s then [.removed k s, .unregistered t s (.ok ())] else [.unregistered t s (.error .assertionError)] := by
  rw [← thread_boundTo]
  have hh := (reg_holder es).2
  simp only [← hh]
  generalize (RegSt.run {} es).1 = σ at *
  simp only [RegSt.run, RegSt.step, hidle, if_true, put, RegSt.leave, List.nil_append, List.append_nil]
  cases σ.thread s with
  | none => rfl
  | some k =>
    simp only [Option.bind_some]
    cases σ.byThread.get? k with
    | none => rfl
    | some s' => simp only [Option.map_some]; split <;> rfl

example : boundTo 7 (RegSt.run {} [.register 1 7, .go 1, .go 1]).2 = some 1 ∧ (RegSt.run {} [.register 1 7, .go 1, .go 1]).1.pc 2 = .idle := by decide +kernel
/-- a server unregistered twice, another one registered in between: AssertionError -/
example : ((RegSt.run {} [.register 1 7, .go 1, .go 1, .unregister 1 7, .go 1, .register 1 8, .go 1, .go 1]).1.run [.unregister 1 7, .go 1]).2 = [.unregistered 1 7 (.error .assertionError)] := by
  decide +kernel

/-! ## Qt -/

/-- **C66** The order is PyQt6, PySide6, PyQt5, PySide2: among installed bindings if none is imported, ... -/
theorem C66_order (installed : String → QtMod → Bool) (hc : Complete installed) (s : QtSt) (h1 : s.have_ = none) (h2 : s.ns = none)
    (h3 : ∀ l ∈ ["PyQt6", "PySide6", "PyQt5", "PySide2"], s.isLoaded l = false) :
    (∀ l, ["PyQt6", "PySide6", "PyQt5", "PySide2"].find? (fun l => installed l .core) = some l → (s.importQt installed none).2 = .ok (fullNs l)) ∧
    ((∀ l ∈ ["PyQt6", "PySide6", "PyQt5", "PySide2"], installed l .core = false) → (s.importQt installed none).2 = .error .importError) :=
  C66_first installed hc s h1 h2 h3

/-- **C66** ... and among imported ones. -/
theorem C66_order_imported (installed : String → QtMod → Bool) (s : QtSt) (h1 : s.have_ = none) (h2 : s.ns = none) (l : String)
    (hl : ["PyQt6", "PySide6", "PyQt5", "PySide2"].find? s.isLoaded = some l) (hi : ∀ m, installed l m = true) : (s.importQt installed none).2 = .ok (fullNs l) :=
  C66_imported installed s h1 h2 l hl hi

/-- **C83** Closing without a QApplication: a server that shall quit it is not closed, and nobody is told anything; one that shall not is closed as usual. Only
a server that shall quit the application does so. -/
theorem C83_no_app (q : QtSrv) (c : Bytes) :
    (q.quitOnClose = true → q.hasApp = false → q.closeAction c = (q, [], .error .attributeError)) ∧
    (q.quitOnClose = false → (q.closeAction c).1.quit = q.quit ∧ (q.closeAction c).1.srv = (q.srv.closeAction c).1 ∧ (q.closeAction c).2 = (q.srv.closeAction c).2) := by
  refine ⟨fun h1 h2 => by simp [QtSrv.closeAction, h1, h2], fun h => ?_⟩
  simp [QtSrv.closeAction, h]

/-- **C83** The event loop ends exactly if `quit()` was called and no user code of a request is running. -/
theorem C83_leaves (q : QtSrv) (h : q.left = false) : ((q.step .leave).1.left = true ↔ q.quit = true ∧ q.srv.stack = []) ∧ (q.step .leave).2 = [] := by
  simp [QtSrv.step, h, List.isEmpty_iff]

/-! ## Servers -/

/-- **C10** The serializers a message can name are exactly `msgpack` and `json`, and each name means the serializer of that name. -/
theorem C10_serializers (st : String) (ser : Ser) : serOf st = some ser ↔ st = (match ser with | .msgpack => "msgpack" | .json => "json") := by
  unfold serOf
  cases ser <;> (split <;> simp_all)

theorem broadcast_stops (c c' : Bytes) (st : String) (pre post : List (Bytes × String)) (hc : c' ≠ c) (hs : serOf st = none)
    (hpre : ∀ x ∈ pre, x.1 ≠ c → serOf x.2 ≠ none) :
    (broadcast c (pre ++ (c', st) :: post)).2 = .error .keyError ∧
    (broadcast c (pre ++ (c', st) :: post)).1 = pre.filterMap (fun x => if x.1 = c then none else (serOf x.2).map fun ser => .send x.1 ser disconnectWire) := by
  induction pre with
  | nil => simp [broadcast, hc, hs]
  | cons x pre ih =>
    obtain ⟨i1, i2⟩ := ih (fun y hy => hpre y (List.mem_cons_of_mem _ hy))
    obtain ⟨a, sa⟩ := x
    simp only [List.cons_append, broadcast]
    by_cases ha : a = c
    · simp only [ha, if_true, i1, i2, List.filterMap_cons, true_and]
    · have hsa := hpre (a, sa) (List.mem_cons_self ..) ha
      cases hser : serOf sa with
      | none => exact absurd hser hsa
      | some ser => simp [ha, i1, i2, hser]

/-- **C15** What closing does if some client last named an unsupported serializer: the clients the server got to know before it are told, those after it are not, closing
fails with KeyError, and the server is closed but still registered. -/
theorem C15_unsupported (s : Srv) (c c' : Bytes) (st : String) (pre post : List (Bytes × String)) (hcl : s.clients = pre ++ (c', st) :: post) (hc : c' ≠ c)
    (hs : serOf st = none) (hpre : ∀ x ∈ pre, x.1 ≠ c → serOf x.2 ≠ none) :
    ∃ o, s.closeAction c = ({ s with closed := true }, o, .error .keyError) ∧
      ∀ d, countSends d o = if d = c then 0 else (pre.filter fun x => decide (x.1 = d)).length := by
  obtain ⟨h1, h2⟩ := broadcast_stops c c' st pre post hc hs hpre
  refine ⟨(broadcast c (pre ++ (c', st) :: post)).1, ?_, ?_⟩
  · unfold Srv.closeAction
    dsimp only
    rw [hcl]
    generalize broadcast c (pre ++ (c', st) :: post) = b at h1
    obtain ⟨o, r⟩ := b
    cases (show r = .error .keyError from h1)
    rfl
  · intro d
    rw [h2]
    clear h1 h2 hcl
    induction pre with
    | nil => simp [countSends]
    | cons x pre ih =>
      have ih := ih (fun y hy => hpre y (List.mem_cons_of_mem _ hy))
      obtain ⟨a, sa⟩ := x
      by_cases ha : a = c
      · simp only [List.filterMap_cons, ha, if_true, ih]
        by_cases hd : d = c
        · simp [hd]
        · simp [hd, Ne.symm hd]
      · cases hser : serOf sa with
        | none => exact absurd hser (hpre (a, sa) (List.mem_cons_self ..) ha)
        | some ser =>
          simp only [List.filterMap_cons, ha, if_false, hser, Option.map_some]
          rw [show ∀ (x : Out) l, x :: l = [x] ++ l from fun _ _ => rfl, countSends_append, ih]
          by_cases hd : d = c
          · simp [hd, countSends, ha]
          · by_cases had : a = d
            · simp [hd, countSends, had]; omega
            · simp [hd, countSends, had]

/-- **C15** Closing a server that is not registered (any more): the clients are told and the server is closed as usual, but the one who asked gets a KeyError. -/
theorem C15_unregistered (s : Srv) (c : Bytes) (hwf : s.clients.WF) (hsers : ∀ c' st, c' ≠ c → (c', st) ∈ s.clients → serOf st ≠ none) :
    ∃ o, s.closeAction c = ({ s with closed := true, registered := false }, o, if s.registered then .ok (.bool true) else .error .keyError) ∧
      countSends c o = 0 ∧ ∀ d, d ≠ c → countSends d o = if (s.clients.get? d).isSome then 1 else 0 := by
  obtain ⟨h1, -, h3, h4⟩ := broadcast_spec c s.clients hwf hsers
  refine ⟨(broadcast c s.clients).1, ?_, h3, h4⟩
  unfold Srv.closeAction
  dsimp only
  generalize broadcast c s.clients = b at h1
  obtain ⟨o, r⟩ := b
  cases (show r = .ok () from h1)
  cases hr : s.registered with
  | true => simp
  | false => simp only [Bool.false_eq_true, if_false]

/-- closing twice: the second one to ask gets a KeyError -/
example : ((Srv.init "a" [] .none).closeAction [65]).1.registered = false ∧ (match (((Srv.init "a" [] .none).closeAction [65]).1.closeAction [65]).2.2 with | .error .keyError => true | _ => false) = true := by
  decide +kernel

/-- **C10** A request whose user code raises an exception with lone surrogates in its text: a client that uses JSON gets the error as usual, but if it uses msgpack the error
cannot be sent and the server's loop ends. -/
theorem C10_surrogates (H : Heap) (hL : H.lib.Laws) (s : Srv) (hh : Healthy H.utf8 s) (f : Frame) (hst : s.stack = [f]) (hk : 0 ≤ f.reqId) (hb : H.tbBad = true) (e e' : Exc)
    (he : f.task.result H (.error e) = .error e') (ser : Ser) (hser : (s.clients.get? f.caller).bind serOf = some ser) :
    (s.step (.ret H (.error e))).1.dead = decide (ser = .msgpack) ∧ countSends f.caller (s.step (.ret H (.error e))).2 = if ser = .msgpack then 0 else 1 := by
  have hca := (hh.frames f (by rw [hst]; exact List.mem_singleton.2 rfl)).1
  obtain ⟨cs, hcs⟩ := Option.ne_none_iff_exists'.1 hca
  simp only [Srv.step, hst, he, Srv.finish, Srv.respond, hk, if_true, Srv.sendError, hcs, Srv.sendResult, hser, hb]
  cases ser with
  | msgpack => simp [countSends]
  | json =>
    obtain ⟨t', w, hd⟩ := errorReply_dumps (E := ({ s with stack := [] } : Srv).sendEnv H) hL hh.types (by simp [Srv.sendEnv]) .json s.refs f.reqId e'.name (H.transcript f.caller f.reqId)
    simp only [reduceCtorEq, and_false, if_false]
    rw [show (({ s with stack := [] } : Srv).refs) = s.refs from rfl, hd]
    simp [hh.sock, hh.alive, countSends]

/-- a running request of a client that uses msgpack -/
example : Healthy { Ex.heap with tbBad := true }.utf8 exCalling ∧ exCalling.stack = [⟨[65], 1, "auto", .call none⟩] ∧ (exCalling.clients.get? [65]).bind serOf = some .msgpack :=
  ⟨exCalling_connected.healthy, rfl, rfl⟩
/-- the server of `C15_unsupported` -/
example : ∃ s : Srv, s.clients = [([65], "msgpack"), ([66], "yaml"), ([67], "json")] ∧ serOf "yaml" = none := ⟨{ Ex.srv with clients := _ }, rfl, rfl⟩

/-- **C11** The class names sent with errors are those of Python. -/
theorem C11_names : [Exc.keyError, .typeError, .valueError, .attributeError, .runtimeError, .timeoutError, .assertionError, .importError, .unicodeError, .zmqError, .connectionRefused,
      .invalidStateError, .pickleError, .indexError].map Exc.name =
    ["KeyError", "TypeError", "ValueError", "AttributeError", "RuntimeError", "TimeoutError", "AssertionError", "ImportError", "UnicodeDecodeError", "ZMQError", "ConnectionRefusedError",
      "InvalidStateError", "PicklingError", "IndexError"] ∧ ∀ n, (Exc.other n).name = n := ⟨rfl, fun _ => rfl⟩

/-- **C73** The eighteen colours of threads. -/
theorem C73_colors : threadColors =
    ["\x1b[22m\x1b[32m", "\x1b[22m\x1b[31m", "\x1b[22m\x1b[36m", "\x1b[22m\x1b[33m", "\x1b[22m\x1b[34m", "\x1b[22m\x1b[35m",
     "\x1b[1m\x1b[32m", "\x1b[1m\x1b[31m", "\x1b[1m\x1b[36m", "\x1b[1m\x1b[33m", "\x1b[1m\x1b[34m", "\x1b[1m\x1b[35m",
     "\x1b[2m\x1b[32m", "\x1b[2m\x1b[31m", "\x1b[2m\x1b[36m", "\x1b[2m\x1b[33m", "\x1b[2m\x1b[34m", "\x1b[2m\x1b[35m"] := by decide +kernel

/-! ## Cases that meet the hypotheses -/

example := C106_stays Ex.codec Ex.csend Refs.init Ex.cenv Ex.cenv (Ex.cli.run Ex.codec Ex.sends).1 [Ex.ret 0 (.int 5) .nil, disconnectWire] [] rfl "ping" none "auto" "sync"
example := C33_gives_up Ex.codec 0 0 (Ex.cli.run Ex.codec Ex.sends).1 rfl [(1, 2), (3, 4)]
example := C38_bound [.register 1 7, .go 1, .go 1] 2 7 1 (by decide +kernel) (by decide +kernel)
example := C38_unregister [.register 1 7, .go 1, .go 1] 2 7 (by decide +kernel)
example := C66_order Ex.installed (fun _ _ _ => rfl) {} rfl rfl (by decide)
example := C66_order_imported Ex.installed (QtSt.run Ex.installed {} [.other "PySide2" .gui]) (by decide) (by decide) "PySide2" (by decide) (by intro m; rfl)
example := C83_leaves { Ex.qt true with quit := true } rfl
example := C15_unsupported { Ex.srv with clients := [([65], "msgpack"), ([66], "yaml"), ([67], "json")] } [67] [66] "yaml" [([65], "msgpack")] [([67], "json")] rfl (by decide) rfl
  (by intro x hx; simp only [List.mem_singleton] at hx; subst hx; simp [serOf])
example := C15_unregistered { Ex.srv with clients := [([65], "msgpack"), ([67], "json")] } [67] (by show Dict.WF _; simp [Dict.WF])
  (by
    intro c' st _ h
    simp only [List.mem_cons, Prod.mk.injEq, List.not_mem_nil, or_false] at h
    rcases h with ⟨-, rfl⟩ | ⟨-, rfl⟩ <;> simp [serOf])
example := C10_surrogates { Ex.heap with tbBad := true } Ex.laws exCalling exCalling_connected.healthy ⟨[65], 1, "auto", .call none⟩ rfl (by decide) rfl .valueError .valueError rfl .msgpack rfl

end Verif
