import Verif.Model.SerState
/-!
# C125: no call of a serializer sees the arguments of another

`Verif.Model.SerState` models the attributes of a serializer object; `Verif.Model.Serializer` passes the arguments of each call
on directly. Here: when the two are the same.
-/
namespace Verif

variable {O : Type}

/-- The server argument of a call. -/
def SerCall.server : SerCall O → Option String
  | .dumps s _ => s
  | .loads s _ => s

/-- Two calls that can be in progress together: they name the same server; two `dumps` the same types, two `loads` the same
options. -/
def SerCall.Agrees : SerCall O → SerCall O → Prop
  | .dumps s t, .dumps s' t' => s = s' ∧ effTypes t = effTypes t'
  | .loads s o, .loads s' o' => s = s' ∧ o = o'
  | c, c' => c.server = c'.server

/-- What `encode` or `decode` is meant to find in this call in a thread with server `here`: the server of the call or else that of
the thread, and the types or the options of the call. -/
def SerCall.Meant (here : Option String) : SerCall O → Option String × List Ty × Option O → Prop
  | .dumps s t, x => x.1 = s.or here ∧ x.2.1 = effTypes t
  | .loads s o, x => x.1 = s.or here ∧ x.2.2 = o

/-- The calls in progress after some events (innermost first). -/
def openCalls : List (SerCall O) → List (SerEv O) → List (SerCall O)
  | cs, [] => cs
  | cs, .start c :: es => openCalls (c :: cs) es
  | cs, .finish :: es => openCalls cs.tail es
  | cs, _ :: es => openCalls cs es

/-- The server of the thread after some events. -/
def hereAfter : Option String → List (SerEv O) → Option String
  | h, [] => h
  | _, .thread h :: es => hereAfter h es
  | h, _ :: es => hereAfter h es

/-- Calls that begin while others are in progress agree with them; the thread gets or loses its server only between calls. -/
def Harmonious (es : List (SerEv O)) : Prop :=
  (∀ a c b, es = a ++ .start c :: b → ∀ c' ∈ openCalls [] a, c.Agrees c') ∧
  (∀ a h b, es = a ++ .thread h :: b → openCalls [] a = [])

theorem SerCall.Agrees.server_eq {c c' : SerCall O} (h : c.Agrees c') : c.server = c'.server := by
  cases c <;> cases c' <;> simp only [SerCall.Agrees, SerCall.server] at h ⊢ <;> first | exact h.1 | exact h

theorem openCalls_append : ∀ (a b : List (SerEv O)) (cs : List (SerCall O)), openCalls cs (a ++ b) = openCalls (openCalls cs a) b
  | [], _, _ => rfl
  | .start c :: a, b, cs => openCalls_append a b (c :: cs)
  | .finish :: a, b, cs => openCalls_append a b cs.tail
  | .look :: a, b, cs => openCalls_append a b cs
  | .thread _ :: a, b, cs => openCalls_append a b cs

theorem ser_run_append : ∀ (a b : List (SerEv O)) (s : SerSt O), s.run (a ++ b) = (((s.run a).1.run b).1, (s.run a).2 ++ ((s.run a).1.run b).2)
  | [], _, _ => rfl
  | e :: a, b, s => by
    simp only [List.cons_append, SerSt.run, ser_run_append a b, List.append_assoc]

theorem ser_calls : ∀ (es : List (SerEv O)) (s : SerSt O), (s.run es).1.calls = openCalls s.calls es
  | [], _ => rfl
  | e :: es, s => by
    simp only [SerSt.run]
    rw [ser_calls es]
    cases e <;> simp only [SerSt.step, openCalls]
    split <;> rename_i h <;> simp only [h]

theorem ser_here : ∀ (es : List (SerEv O)) (s : SerSt O), (s.run es).1.here = hereAfter s.here es
  | [], _ => rfl
  | e :: es, s => by
    simp only [SerSt.run]
    rw [ser_here es]
    cases e <;> simp only [SerSt.step, hereAfter]
    split <;> rfl

/-- The attributes fit a call in progress. -/
def SerAttrs.Fit (s : SerAttrs O) (here : Option String) : SerCall O → Prop
  | .dumps srv t => (s.server = srv ∨ srv = none ∧ s.server = here) ∧ s.tys = effTypes t
  | .loads srv o => (s.server = srv ∨ srv = none ∧ s.server = here) ∧ s.opts = o

theorem start_fit (s : SerAttrs O) (here) (c : SerCall O) : (s.start c).Fit here c := by
  cases c <;> simp [SerAttrs.start, SerAttrs.Fit]

theorem start_fit_other {s : SerAttrs O} {here} {c c' : SerCall O} (h : s.Fit here c') (ha : c.Agrees c') : (s.start c).Fit here c' := by
  cases c <;> cases c' <;> simp only [SerCall.Agrees, SerCall.server, SerAttrs.Fit, SerAttrs.start] at h ha ⊢
  · exact ⟨.inl ha.1, ha.2⟩
  · exact ⟨.inl ha, h.2⟩
  · exact ⟨.inl ha, h.2⟩
  · exact ⟨.inl ha.1, ha.2⟩

theorem getServer_fit {s : SerAttrs O} {here} {c : SerCall O} (h : s.Fit here c) : (s.getServer here).1.Fit here c := by
  unfold SerAttrs.getServer
  split
  · exact h
  · rename_i hs
    cases c <;> simp only [SerAttrs.Fit, hs] at h ⊢ <;> refine ⟨?_, h.2⟩
    all_goals
      rcases h.1 with h1 | ⟨h1, h2⟩
      · exact .inr ⟨h1.symm, trivial⟩
      · exact .inr ⟨h1, trivial⟩

theorem getServer_meant {s : SerAttrs O} {here} {c : SerCall O} (h : s.Fit here c) : c.Meant here ((s.getServer here).2, s.tys, s.opts) := by
  have key : ∀ srv, (s.server = srv ∨ srv = none ∧ s.server = here) → (s.getServer here).2 = srv.or here := by
    intro srv h1
    unfold SerAttrs.getServer
    rcases h1 with rfl | ⟨rfl, h2⟩
    · cases s.server <;> simp
    · rw [h2]; cases here <;> simp
  cases c <;> exact ⟨key _ h.1, h.2⟩

theorem ser_fit {here : Option String} : ∀ {es : List (SerEv O)}, Harmonious es → ∀ c ∈ openCalls [] es,
    ((SerSt.init here).run es).1.attrs.Fit (hereAfter here es) c := by
  intro es
  induction hn : es.length generalizing es with
  | zero =>
    intro _ c hc
    have : es = [] := List.length_eq_zero_iff.1 hn
    subst this; simp [openCalls] at hc
  | succ n ih =>
    intro hh c hc
    obtain ⟨a, e, rfl⟩ : ∃ a e, es = a ++ [e] := by
      have : es ≠ [] := by intro h; subst h; simp at hn
      exact ⟨es.dropLast, es.getLast this, (List.dropLast_concat_getLast this).symm⟩
    have ha : Harmonious a := ⟨fun x c y h => hh.1 x c (y ++ [e]) (by rw [h]; simp), fun x c y h => hh.2 x c (y ++ [e]) (by rw [h]; simp)⟩
    have ih' := ih (es := a) (by simpa using hn) ha
    have hca := ser_calls a (SerSt.init (O := O) here)
    have hhe := ser_here a (SerSt.init (O := O) here)
    have hhere : hereAfter here (a ++ [e]) = ((SerSt.init here).run (a ++ [e])).1.here := (ser_here (a ++ [e]) (SerSt.init here)).symm
    rw [hhere]
    rw [ser_run_append]
    rw [openCalls_append] at hc
    simp only [SerSt.run]
    cases e with
    | start c' =>
      simp only [openCalls, List.mem_cons] at hc
      simp only [SerSt.step]
      rcases hc with rfl | hc
      · exact start_fit _ _ _
      · have := ih' c hc
        rw [← (show _ = hereAfter here a from hhe)] at this
        exact start_fit_other this (hh.1 a c' [] rfl c hc)
    | finish =>
      simp only [openCalls] at hc
      simp only [SerSt.step]
      have := ih' c (List.mem_of_mem_tail hc)
      rw [← (show _ = hereAfter here a from hhe)] at this
      exact this
    | look =>
      simp only [openCalls] at hc
      simp only [SerSt.step]
      have := ih' c hc
      rw [← (show _ = hereAfter here a from hhe)] at this
      split
      · exact this
      · exact getServer_fit this
    | thread h =>
      simp only [openCalls] at hc
      rw [hh.2 a h [] rfl] at hc
      simp at hc

/-- **C125** In every history in which calls that overlap agree, every `encode` and `decode` finds the arguments of the call it
belongs to, and the server of the thread if the call names none: nothing is left over from other calls, whether they
returned or raised, came before or were made from within. -/
theorem C125_own_arguments {here : Option String} {a b : List (SerEv O)} (hh : Harmonious (a ++ .look :: b)) {c cs}
    (hc : openCalls [] a = c :: cs) :
    ∃ x, ((SerSt.init here).run (a ++ [.look])).2 = ((SerSt.init here).run a).2 ++ [(c, x)] ∧ c.Meant (hereAfter here a) x := by
  have ha : Harmonious a := ⟨fun x c y h => hh.1 x c (y ++ .look :: b) (by rw [h]; simp), fun x c y h => hh.2 x c (y ++ .look :: b) (by rw [h]; simp)⟩
  have hf := ser_fit (here := here) ha c (by rw [hc]; simp)
  have hca : ((SerSt.init here).run a).1.calls = c :: cs := by rw [ser_calls]; exact hc
  have hhe := ser_here a (SerSt.init (O := O) here)
  refine ⟨_, ?_, getServer_meant hf⟩
  rw [ser_run_append]
  simp only [SerSt.run, SerSt.step, hca, Option.toList_some, List.append_nil]
  rw [show hereAfter here a = _ from hhe.symm]

/-- The arguments of all calls of a client's serializer: /repo/teleprox/client.py:299 and 525. -/
def clientCall (tys : List Ty) (opts : O) : SerCall O → Prop
  | .dumps s t => s = none ∧ t = tys
  | .loads s o => s = none ∧ o = some opts

/-- The arguments of the calls of a server's serializers that serve requests: /repo/teleprox/server.py:289 and 342. -/
def serverCall (addr : String) (tys : List Ty) (noOpts : O) : SerCall O → Prop
  | .dumps s t => s = some addr ∧ t = tys
  | .loads s o => s = some addr ∧ o = some noOpts

/-- The call that makes the message of a closing server: /repo/teleprox/server.py:404. -/
def goodbyeCall : SerCall O := .dumps none []

theorem openCalls_mem : ∀ (a : List (SerEv O)) (cs : List (SerCall O)) (c : SerCall O), c ∈ openCalls cs a → c ∈ cs ∨ .start c ∈ a
  | [], _, _, h => .inl h
  | .start c' :: a, cs, c, h => by
    rcases openCalls_mem a _ _ h with h | h
    · rcases List.mem_cons.1 h with rfl | h
      · exact .inr (by simp)
      · exact .inl h
    · exact .inr (by simp [h])
  | .finish :: a, cs, c, h => by
    rcases openCalls_mem a _ _ h with h | h
    · exact .inl (List.mem_of_mem_tail h)
    · exact .inr (by simp [h])
  | .look :: a, cs, c, h => (openCalls_mem a _ _ h).imp id (fun h => by simp [h])
  | .thread _ :: a, cs, c, h => (openCalls_mem a _ _ h).imp id (fun h => by simp [h])

/-- **C125** However the calls of a client's serializer are nested, each finds its own arguments and the thread's server (which is
registered or unregistered only between calls). -/
theorem C125_client {tys : List Ty} {opts : O} {here : Option String} {a : List (SerEv O)}
    (hes : ∀ c, .start c ∈ a → clientCall tys opts c)
    (ht : ∀ x h y, a = x ++ .thread h :: y → openCalls [] x = []) {c cs} (hc : openCalls [] a = c :: cs) :
    ∃ x, ((SerSt.init here).run (a ++ [.look])).2 = ((SerSt.init here).run a).2 ++ [(c, x)] ∧ x.1 = hereAfter here a ∧
      ((∃ s t, c = .dumps s t) → x.2.1 = effTypes tys) ∧ ((∃ s o, c = .loads s o) → x.2.2 = some opts) := by
  have hh : Harmonious (a ++ [.look]) := by
    constructor
    · intro x c y he c' hc'
      have hx : ∃ y', a = x ++ .start c :: y' := by
        rcases List.append_eq_append_iff.1 he with ⟨z, e1, e2⟩ | ⟨z, e1, e2⟩
        · cases z with
          | nil => simp at e2
          | cons w z => simp at e2
        · cases z with
          | nil => simp at e2
          | cons w z => simp only [List.cons_append, List.cons.injEq] at e2; exact ⟨z, by rw [e1, e2.1]⟩
      obtain ⟨y', rfl⟩ := hx
      have h1 := hes c (by simp)
      have h2 := hes c' (by
        rcases openCalls_mem x [] c' hc' with h | h
        · simp at h
        · simp [h])
      cases c <;> cases c' <;> simp only [clientCall, SerCall.Agrees, SerCall.server] at h1 h2 ⊢ <;> simp [h1, h2]
    · intro x h y he
      have hx : ∃ y', a = x ++ .thread h :: y' := by
        rcases List.append_eq_append_iff.1 he with ⟨z, e1, e2⟩ | ⟨z, e1, e2⟩
        · cases z with
          | nil => simp at e2
          | cons w z => simp at e2
        · cases z with
          | nil => simp at e2
          | cons w z => simp only [List.cons_append, List.cons.injEq] at e2; exact ⟨z, by rw [e1, e2.1]⟩
      obtain ⟨y', rfl⟩ := hx
      exact ht x h y' rfl
  obtain ⟨x, h1, h2⟩ := C125_own_arguments (here := here) hh hc
  have hcc := hes c (by
    rcases openCalls_mem a [] c (by rw [hc]; simp) with h | h
    · simp at h
    · exact h)
  refine ⟨x, h1, ?_⟩
  cases c with
  | dumps s t =>
    simp only [clientCall, SerCall.Meant] at hcc h2
    obtain ⟨rfl, rfl⟩ := hcc
    exact ⟨by simpa using h2.1, fun _ => h2.2, by rintro ⟨_, _, h⟩; simp at h⟩
  | loads s o =>
    simp only [clientCall, SerCall.Meant] at hcc h2
    obtain ⟨rfl, rfl⟩ := hcc
    exact ⟨by simpa using h2.1, by rintro ⟨_, _, h⟩; simp at h, fun _ => h2.2⟩

/-- Every call serves a request, or makes the message of a closing server and begins when no other is in progress. -/
def ServesRequests (addr : String) (tys : List Ty) (noOpts : O) (es : List (SerEv O)) : Prop :=
  ∀ a c b, es = a ++ .start c :: b → (serverCall addr tys noOpts c ∧ goodbyeCall ∉ openCalls [] a) ∨ (c = goodbyeCall ∧ openCalls [] a = [])

/-- **C125** The same for a server's serializers, which find the server itself whatever its thread is, as long as the server is not
closed in the middle of a call. (What happens then: `C125_negation`.) -/
theorem C125_server_partial {addr : String} {tys : List Ty} {noOpts : O} {here : Option String} {a : List (SerEv O)}
    (hes : ServesRequests addr tys noOpts a) (ht : ∀ x h y, a = x ++ .thread h :: y → openCalls [] x = []) {c cs}
    (hc : openCalls [] a = c :: cs) (hg : c ≠ goodbyeCall) :
    ∃ x, ((SerSt.init here).run (a ++ [.look])).2 = ((SerSt.init here).run a).2 ++ [(c, x)] ∧ x.1 = some addr ∧
      ((∃ s t, c = .dumps s t) → x.2.1 = effTypes tys) ∧ ((∃ s o, c = .loads s o) → x.2.2 = some noOpts) := by
  have hserve : ∀ x, (∃ y, a = x ++ y) → ∀ c ∈ openCalls [] x, serverCall addr tys noOpts c ∨ c = goodbyeCall := by
    rintro x ⟨y, rfl⟩ c hc
    rcases openCalls_mem x [] c hc with h | h
    · simp at h
    · obtain ⟨p, q, rfl⟩ := List.append_of_mem h
      rcases hes p c (q ++ y) (by simp) with h | h
      · exact .inl h.1
      · exact .inr h.1
  have hcut : ∀ {x e y}, a ++ [.look] = x ++ e :: y → e ≠ .look → ∃ y', a = x ++ e :: y' := by
    intro x e y he hne
    rcases List.append_eq_append_iff.1 he with ⟨z, e1, e2⟩ | ⟨z, e1, e2⟩
    · cases z with
      | nil => simp only [List.nil_append, List.cons.injEq] at e2; exact absurd e2.1.symm hne
      | cons w z => simp at e2
    · cases z with
      | nil => simp only [List.nil_append, List.cons.injEq] at e2; exact absurd e2.1 hne
      | cons w z => simp only [List.cons_append, List.cons.injEq] at e2; exact ⟨z, by rw [e1, e2.1]⟩
  have hh : Harmonious (a ++ [.look]) := by
    constructor
    · intro x c y he c' hc'
      obtain ⟨y', hx⟩ := hcut he (by simp)
      rcases hes x c y' hx with ⟨h1, h2⟩ | ⟨_, h2⟩
      · rcases hserve x ⟨_, hx⟩ c' hc' with h3 | rfl
        · cases c <;> cases c' <;> simp only [serverCall, SerCall.Agrees, SerCall.server] at h1 h3 ⊢ <;> simp [h1, h3]
        · exact absurd hc' h2
      · rw [h2] at hc'; simp at hc'
    · intro x h y he
      obtain ⟨y', hx⟩ := hcut he (by simp)
      exact ht x h y' hx
  obtain ⟨x, h1, h2⟩ := C125_own_arguments (here := here) hh hc
  have hcc := (hserve a ⟨[], by simp⟩ c (by rw [hc]; simp)).resolve_right hg
  refine ⟨x, h1, ?_⟩
  cases c with
  | dumps s t =>
    simp only [serverCall, SerCall.Meant] at hcc h2
    obtain ⟨rfl, rfl⟩ := hcc
    exact ⟨by simpa using h2.1, fun _ => h2.2, by rintro ⟨_, _, h⟩; simp at h⟩
  | loads s o =>
    simp only [serverCall, SerCall.Meant] at hcc h2
    obtain ⟨rfl, rfl⟩ := hcc
    exact ⟨by simpa using h2.1, by rintro ⟨_, _, h⟩; simp at h, fun _ => h2.2⟩

/-- **C125, negation.** A server is closed while it serializes a reply (pickling an item of the reply made a request, and while this
waited the request to close came in): the rest of the reply is encoded with the default types instead of those of the
server, and without a server, so that an object to be sent by proxy raises `TypeError`. -/
theorem C125_negation (addr : String) (tys : List Ty) (_hty : effTypes tys ≠ defaultTypes) (here : Option String) :
    ((SerSt.init (O := O) here).run [.start (.dumps (some addr) tys), .look, .start goodbyeCall, .finish, .thread none, .look]).2 =
      [(.dumps (some addr) tys, some addr, effTypes tys, none), (.dumps (some addr) tys, none, defaultTypes, none)] ∧
    ∀ (E : SendEnv) (t : Refs) (v : Val), v.isinstance defaultTypes = false →
      encode { E with server := none, tys := defaultTypes } t v = (t, .error .typeError) := by
  constructor
  · rfl
  · intro E t v h
    simp [encode, h]

/-! ## Examples -/

/-- A client sends, is called back while pickling, reads a reply, and gets a server afterwards. -/
def exSer : List (SerEv Nat) :=
  [.thread (some "tcp://l:1"), .start (.dumps none []), .look, .start (.loads none (some 7)), .look, .start (.dumps none []), .look, .finish, .finish]

example : ∃ x, ((SerSt.init none).run (exSer ++ [.look])).2 = ((SerSt.init none).run exSer).2 ++ [(.dumps none [], x)] ∧
    x.1 = some "tcp://l:1" ∧ x.2.1 = effTypes [] := by
  obtain ⟨x, h1, h2, h3, -⟩ := C125_client (tys := []) (opts := 7) (here := none) (a := exSer) (c := .dumps none []) (cs := [])
    (by simp [exSer, clientCall])
    (by
      intro x h y he
      rcases x with _ | ⟨w, x⟩
      · rfl
      · exfalso
        simp only [exSer, List.cons_append, List.cons.injEq] at he
        have : SerEv.thread h ∈ x ++ .thread h :: y := by simp
        rw [← he.2] at this
        simp at this) rfl
  exact ⟨x, h1, h2, h3 ⟨_, _, rfl⟩⟩

/-- A server reads a request, whose proxies make it read another one, and replies; then it is closed. -/
def exSerS : List (SerEv Nat) :=
  [.start (.loads (some "tcp://s:1") (some 0)), .look, .start (.loads (some "tcp://s:1") (some 0)), .look, .finish,
   .start (.dumps (some "tcp://s:1") [.user 1])]

example : ((SerSt.init (some "x")).run (exSerS ++ [.look])).2.map (fun x => (x.2.1, x.2.2.1 == [.user 1])) =
    [(some "tcp://s:1", false), (some "tcp://s:1", false), (some "tcp://s:1", true)] := by decide +kernel

theorem exSerS_serves : ServesRequests "tcp://s:1" [.user 1] 0 exSerS := by
  intro a c b he
  have hn : ∀ x, (∃ y, exSerS = x ++ y) → goodbyeCall ∉ openCalls [] x := by
    rintro x ⟨y, hy⟩ hm
    rcases openCalls_mem x [] _ hm with h | h
    · simp at h
    · have : SerEv.start goodbyeCall ∈ exSerS := by rw [hy]; simp [h]
      simp [exSerS, goodbyeCall] at this
  refine .inl ⟨?_, hn a ⟨_, he⟩⟩
  have : SerEv.start c ∈ exSerS := by rw [he]; simp
  simp only [exSerS, List.mem_cons, List.not_mem_nil, or_false, SerEv.start.injEq, reduceCtorEq, false_or] at this
  rcases this with rfl | rfl | rfl <;> simp [serverCall]

example : ∃ x, ((SerSt.init none).run (exSerS ++ [.look])).2 = ((SerSt.init none).run exSerS).2 ++ [(.dumps (some "tcp://s:1") [.user 1], x)] ∧
    x.1 = some "tcp://s:1" ∧ x.2.1 = effTypes [.user 1] := by
  obtain ⟨x, h1, h2, h3, -⟩ := C125_server_partial (addr := "tcp://s:1") (tys := [.user 1]) (noOpts := 0) (here := none) (a := exSerS) (cs := [.loads (some "tcp://s:1") (some 0)])
    exSerS_serves
    (by
      intro x h y he
      have : SerEv.thread h ∈ exSerS := by rw [he]; simp
      simp [exSerS] at this) rfl (by simp [goodbyeCall])
  exact ⟨x, h1, h2, h3 ⟨_, _, rfl⟩⟩

/-- All calls of the client agree with each other, and the thread gets its server before them. -/
theorem exSer_harmonious : Harmonious (exSer ++ .look :: []) := by
  constructor
  · intro a c b he c' hc'
    have hm : ∀ c, SerEv.start c ∈ exSer ++ .look :: [] → c = .dumps none [] ∨ c = .loads none (some 7) := by
      intro c h
      simp only [exSer, List.cons_append, List.nil_append, List.mem_cons, List.not_mem_nil, or_false, SerEv.start.injEq, reduceCtorEq, false_or] at h
      rcases h with h | h | h <;> simp [h]
    have h1 := hm c (by rw [he]; simp)
    have h2 := hm c' (by
      rcases openCalls_mem a [] _ hc' with h | h
      · simp at h
      · rw [he]; simp [h])
    rcases h1 with rfl | rfl <;> rcases h2 with rfl | rfl <;> simp [SerCall.Agrees, SerCall.server]
  · intro a h b he
    rcases a with _ | ⟨w, x⟩
    · rfl
    · exfalso
      simp only [exSer, List.cons_append, List.cons.injEq] at he
      have : SerEv.thread h ∈ x ++ .thread h :: b := by simp
      rw [← he.2] at this
      simp at this
example := C125_own_arguments (here := none) exSer_harmonious (c := .dumps none []) (cs := []) rfl
example := C125_negation (O := Nat) "tcp://s:1" [.user 1] (by decide) none

end Verif
