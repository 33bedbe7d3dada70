import Verif.Proof.Registry
/-!
# The registries of servers and clients (C38, C39, C40)
-/
namespace Verif

/-! ## C38: at most one server per thread -/

/-- C38, first part: in every history, no thread is in the registry twice, and the server registered for a thread is the
last one added for it and not removed since. -/
theorem C38_one_per_thread (es : List RegEv) :
    ((RegSt.run {} es).1.byThread.map (·.1)).Nodup ∧
      ∀ t s, (t, s) ∈ (RegSt.run {} es).1.byThread ↔ holder t (RegSt.run {} es).2 = some s := by
  obtain ⟨h1, h2⟩ := reg_holder es
  refine ⟨h1, fun t s => ?_⟩
  rw [← h2]
  exact ⟨fun h => Dict.get?_of_mem h1 h, Dict.get?_some_mem⟩

/-- C38, `get_server`: whatever `get_server()` returns at any moment of any history is the server registered for the calling
thread, or `None`. -/
theorem C38_get_server (es : List RegEv) (e : RegEv) (t : Nat) (v : Option Nat)
    (h : .got t v ∈ ((RegSt.run {} es).1.step e).2) : v = holder t (RegSt.run {} es).2 := by
  rw [← (reg_holder es).2 t]
  generalize (RegSt.run {} es).1 = σ at h ⊢
  cases e with
  | register t s => simp only [RegSt.step, RegSt.register] at h; repeat' split at h
                    all_goals simp at h
  | unregister t s => simp only [RegSt.step] at h; repeat' split at h
                      all_goals simp at h
  | go t => simp only [RegSt.step, RegSt.insert, RegSt.leave] at h; repeat' split at h
            all_goals simp at h
  | get t' =>
    simp only [RegSt.step] at h
    split at h <;> simp at h
    obtain ⟨rfl, rfl⟩ := h; rfl

/-- C38, `get_server` answers: a thread that is not in the middle of a registration gets its server. -/
theorem C38_get_server_answers (es : List RegEv) (t : Nat) (h : (RegSt.run {} es).1.pc t = .idle) :
    ((RegSt.run {} es).1.step (.get t)).2 = [.got t (holder t (RegSt.run {} es).2)] := by
  rw [← (reg_holder es).2 t]
  simp [RegSt.step, h]

/-- What thread `t` does. -/
def RegEv.by (t : Nat) : RegEv → Bool
  | .register t' _ => t' = t
  | .unregister t' _ => t' = t
  | .go t' => t' = t
  | .get t' => t' = t

theorem pc_step_other (σ : RegSt) (e : RegEv) (t : Nat) (h : e.by t = false) : (σ.step e).1.pc t = σ.pc t := by
  cases e with
  | register t' s =>
    have ht : t ≠ t' := by simp [RegEv.by] at h; exact fun h' => h h'.symm
    simp only [RegSt.step, RegSt.register]; repeat' split
    all_goals simp [put_ne _ ht]
  | unregister t' s =>
    have ht : t ≠ t' := by simp [RegEv.by] at h; exact fun h' => h h'.symm
    simp only [RegSt.step]; repeat' split
    all_goals simp [put_ne _ ht]
  | go t' =>
    have ht : t ≠ t' := by simp [RegEv.by] at h; exact fun h' => h h'.symm
    simp only [RegSt.step, RegSt.insert, RegSt.leave]; repeat' split
    all_goals simp [put_ne _ ht]
  | get t' => simp only [RegSt.step]; split <;> rfl

theorem pc_run_other (t : Nat) : ∀ (es : List RegEv) (σ : RegSt), (∀ e ∈ es, e.by t = false) →
    (σ.run es).1.pc t = σ.pc t
  | [], _, _ => rfl
  | e :: es, σ, h => by
    show ((σ.step e).1.run es).1.pc t = _
    rw [pc_run_other t es _ (fun e' he' => h e' (List.mem_cons_of_mem _ he')), pc_step_other _ _ _ (h e (List.mem_cons_self ..))]

/-- C38, second server: a thread registers a server that was never registered before. Whatever other threads do meanwhile, if
a server is registered for the thread when the registration is decided, `register_server` raises `KeyError` and changes
nothing; otherwise the server is added. Partial: a server that was registered in the thread before and then unregistered
is not refused (`Ex.C38_fails_again`). -/
theorem C38_second_partial (es mid : List RegEv) (t s : Nat) (hidle : (RegSt.run {} es).1.pc t = .idle)
    (hnew : ∀ t', .registered t' s (.ok ()) ∉ (RegSt.run {} es).2) (hmid : ∀ e ∈ mid, e.by t = false) :
    let r := RegSt.run {} (es ++ .register t s :: mid)
    (holder t r.2 ≠ none → (r.1.step (.go t)).2 = [.registered t s (.error .keyError)] ∧
      (r.1.step (.go t)).1.byThread = r.1.byThread ∧ (r.1.step (.go t)).1.thread = r.1.thread ∧
      (r.1.step (.go t)).1.pc t = .idle) ∧
    (holder t r.2 = none → (r.1.step (.go t)).2 = [.added t s]) := by
  intro r
  have hnone : (RegSt.run {} es).1.thread s = none := by
    by_cases h : (RegSt.run {} es).1.thread s = none
    · exact h
    · obtain ⟨t', ht'⟩ := (reg_thread es s).1 h
      exact absurd ht' (hnew t')
  have hpc : r.1.pc t = .checked s := by
    show (RegSt.run {} (es ++ .register t s :: mid)).1.pc t = _
    rw [reg_run_append]
    show (((RegSt.run {} es).1.step (.register t s)).1.run mid).1.pc t = _
    rw [pc_run_other t mid _ hmid]
    simp [RegSt.step, RegSt.register, hidle, hnone]
  have hh : r.1.byThread.get? t = holder t r.2 := (reg_holder _).2 t
  rw [← hh]
  generalize r.1 = σ at hpc
  refine ⟨fun h => ?_, fun h => ?_⟩
  · have : σ.byThread.has t = true := by
      cases h' : σ.byThread.get? t with
      | none => exact absurd h' h
      | some x => simp [Dict.has, h']
    simp [RegSt.step, hpc, RegSt.insert, this]
  · simp [RegSt.step, hpc, RegSt.insert, Dict.has, h]

/-- C38, one thread per server: if no two threads register the same server at the same time, no server is ever registered for two
threads. Partial: without that assumption it can be (`Ex.C38_fails_race`). -/
theorem C38_one_thread_partial (es : List RegEv) (h : SerialReg es) (t t' s : Nat)
    (h1 : holder t (RegSt.run {} es).2 = some s) (h2 : holder t' (RegSt.run {} es).2 = some s) : t = t' := by
  have inv := regInv_run es h
  rw [← (reg_holder es).2] at h1 h2
  rcases inv.entry _ _ h1 with a | a <;> rcases inv.entry _ _ h2 with b | b
  · rw [a] at b; cases b; rfl
  · have := inv.busy t' s (.inr b); rw [a] at this; cases this
  · have := inv.busy t s (.inr a); rw [b] at this; cases this
  · exact inv.uniq t t' s (.inr a) (.inr b)

/-! ## C39, C40: one client per thread and address -/

/-- C39: as long as clients are closed by their own threads, once, and after construction, `get_client(a)` returns the client
that was made for the thread and address until this client is closed (or its construction fails), and constructing
another one raises `KeyError` and changes nothing. Partial: for other histories see `Ex.C39_fails`. -/
theorem C39_same_client_partial (es : List CacheEv) (ho : Orderly es) (t : Nat) (a : Bytes) (c : Nat)
    (h : Living (CacheSt.run {} es).2 t a c) :
    (CacheSt.run {} es).1.step (.get t a) = ((CacheSt.run {} es).1, [.got t a c]) ∧
    (CacheSt.run {} es).1.step (.new t a) = ((CacheSt.run {} es).1, [.refused t a .keyError]) := by
  have hc := ((cacheInv_run es ho).1 t a c).2 h
  generalize (CacheSt.run {} es).1 = σ at hc
  simp [CacheSt.step, CacheSt.new, Dict.has, hc]

/-- C39: if no client of the thread for the address is alive, both `get_client` and `RPCClient(...)` begin to construct a client
that never existed before. Partial: in orderly histories. -/
theorem C39_new_client_partial (es : List CacheEv) (ho : Orderly es) (t : Nat) (a : Bytes)
    (h : ∀ c, ¬ Living (CacheSt.run {} es).2 t a c) :
    ∃ c, ((CacheSt.run {} es).1.step (.get t a)).2 = [.began t a c] ∧
      ((CacheSt.run {} es).1.step (.new t a)).2 = [.began t a c] ∧
      (∀ t' a', .began t' a' c ∉ (CacheSt.run {} es).2) := by
  have hb := cacheBase_run es
  have hc : (CacheSt.run {} es).1.cache.get? (t, a) = none := by
    cases h' : (CacheSt.run {} es).1.cache.get? (t, a) with
    | none => rfl
    | some c => exact absurd (((cacheInv_run es ho).1 t a c).1 h') (h c)
  generalize CacheSt.run {} es = r at hc hb ⊢
  obtain ⟨σ, os⟩ := r
  refine ⟨σ.made.length, by simp_all [CacheSt.step, CacheSt.new, Dict.has], by simp_all [CacheSt.step, CacheSt.new, Dict.has], ?_⟩
  intro t' a' h'
  have := (hb.made _ _ _).1 h'
  simp at this

/-- C39: everything `get_client(a)` or `RPCClient(a)` returns in an orderly history is a client alive for the thread and address,
and there is only one such client. Partial: in orderly histories. -/
theorem C39_returned_partial (es : List CacheEv) (ho : Orderly es) (e : CacheEv) (t : Nat) (a : Bytes) (c : Nat)
    (h : .got t a c ∈ ((CacheSt.run {} es).1.step e).2) :
    Living (CacheSt.run {} es).2 t a c ∧ ∀ c', Living (CacheSt.run {} es).2 t a c' → c' = c := by
  obtain ⟨hi, hbd⟩ := cacheInv_run es ho
  have hb := cacheBase_run es
  suffices hs : Living (CacheSt.run {} es).2 t a c by
    refine ⟨hs, fun c' h' => ?_⟩
    have h1 := (hi _ _ _).2 hs
    have h2 := (hi _ _ _).2 h'
    rw [h1] at h2; cases h2; rfl
  generalize CacheSt.run {} es = r at h hi hbd hb ⊢
  obtain ⟨σ, os⟩ := r
  dsimp only at h hi hbd hb ⊢
  cases e with
  | get t' a' =>
    simp only [CacheSt.step] at h
    split at h
    · rename_i c' hc
      simp at h; obtain ⟨rfl, rfl, rfl⟩ := h
      exact (hi _ _ _).1 hc
    · simp only [CacheSt.new] at h; split at h <;> simp at h
  | new t' a' => simp only [CacheSt.step, CacheSt.new] at h; split at h <;> simp at h
  | connected t' =>
    simp only [CacheSt.step] at h
    split at h
    · simp at h
    · rename_i c' r hb'
      split at h
      · rename_i x t1 a1 hm
        simp at h; obtain ⟨rfl, rfl, rfl⟩ := h
        obtain ⟨a2, h2⟩ := hbd t c (by rw [hb']; simp)
        have := (hb.made _ _ _).1 h2.1
        rw [hm] at this; cases this; exact h2
      · simp at h
  | failed t' e => simp only [CacheSt.step] at h; repeat' split at h
                   all_goals simp at h
  | close t' c' => simp only [CacheSt.step] at h; repeat' split at h
                   all_goals simp at h

/-- C39: in every history, a construction that fails leaves no client cached for its thread and address. -/
theorem C39_failed (es : List CacheEv) (e : CacheEv) (t : Nat) (a : Bytes) (c : Nat) (x : Exc)
    (h : .broke t a c x ∈ ((CacheSt.run {} es).1.step e).2) :
    ∀ c', ((t, a), c') ∉ ((CacheSt.run {} es).1.step e).1.cache := by
  intro c' hc'
  have hw : ((CacheSt.run {} es).1.step e).1.cache.WF := by
    have := (cacheBase_run (es ++ [e])).wf
    rwa [cache_run_snoc] at this
  have hg := Dict.get?_of_mem hw hc'
  generalize (CacheSt.run {} es).1 = σ at h hg
  cases e with
  | get t' a' =>
    simp only [CacheSt.step, CacheSt.new] at h; repeat' split at h
    all_goals simp at h
  | new t' a' => simp only [CacheSt.step, CacheSt.new] at h; split at h <;> simp at h
  | connected t' => simp only [CacheSt.step] at h; repeat' split at h
                    all_goals simp at h
  | close t' c' => simp only [CacheSt.step] at h; repeat' split at h
                   all_goals simp at h
  | failed t' e =>
    simp only [CacheSt.step] at h hg
    split at h
    · simp at h
    · split at h
      · rename_i c1 r hb1 x t1 a1 hm
        simp at h; obtain ⟨rfl, rfl, rfl, rfl⟩ := h
        simp only [hb1, hm] at hg
        rw [Dict.get?_erase] at hg; simp at hg
      · simp at h

/-- C40: in an orderly history, closing a client removes exactly this client from the cache. Partial: closing from another thread, or
a second time, does not (`Ex.C40_fails`, `Ex.C40_fails_twice`). -/
theorem C40_close_partial (es : List CacheEv) (t c : Nat) (ho : Orderly (es ++ [.close t c])) (k : Nat × Bytes) (c' : Nat) :
    (k, c') ∈ ((CacheSt.run {} es).1.step (.close t c)).1.cache ↔ (k, c') ∈ (CacheSt.run {} es).1.cache ∧ c' ≠ c := by
  have h1 := (cacheInv_run es ho.prefix).1
  have h2 := (cacheInv_run _ ho).1
  have w1 := (cacheBase_run es).wf
  have w2 := (cacheBase_run (es ++ [.close t c])).wf
  obtain ⟨⟨a, ha⟩, -⟩ := ho es t c [] rfl
  have hm := ((cacheBase_run es).made _ _ _).1 ha.1
  rw [cache_run_snoc] at h2 w2
  dsimp only at h2 w2
  have hout : ((CacheSt.run {} es).1.step (.close t c)).2 = [.closed t c] := by
    simp [CacheSt.step, hm]
  rw [hout] at h2
  have m1 : (k, c') ∈ (CacheSt.run {} es).1.cache ↔ (CacheSt.run {} es).1.cache.get? k = some c' :=
    ⟨fun h => Dict.get?_of_mem w1 h, Dict.get?_some_mem⟩
  have m2 : (k, c') ∈ ((CacheSt.run {} es).1.step (.close t c)).1.cache ↔
      ((CacheSt.run {} es).1.step (.close t c)).1.cache.get? k = some c' :=
    ⟨fun h => Dict.get?_of_mem w2 h, Dict.get?_some_mem⟩
  rw [m1, m2]
  obtain ⟨tk, ak⟩ := k
  rw [h2, h1, alive_closed]

/-- C40: in every history, `close` called by thread `t` leaves the cached clients of all other threads, and of its own thread for
other addresses than the client's, as they are. -/
theorem C40_others (es : List CacheEv) (t c : Nat) (t' : Nat) (a' : Bytes)
    (h : t' ≠ t ∨ ∀ u, (CacheOut.began u a' c) ∉ (CacheSt.run {} es).2) (c' : Nat) :
    ((t', a'), c') ∈ ((CacheSt.run {} es).1.step (.close t c)).1.cache ↔ ((t', a'), c') ∈ (CacheSt.run {} es).1.cache := by
  have hb := cacheBase_run es
  have w2 := (cacheBase_run (es ++ [.close t c])).wf
  rw [cache_run_snoc] at w2
  dsimp only at w2
  generalize CacheSt.run {} es = r at hb w2 h ⊢
  obtain ⟨σ, os⟩ := r
  dsimp only at hb w2 h ⊢
  have m1 : ((t', a'), c') ∈ σ.cache ↔ σ.cache.get? (t', a') = some c' :=
    ⟨fun h => Dict.get?_of_mem hb.wf h, Dict.get?_some_mem⟩
  have m2 : ((t', a'), c') ∈ (σ.step (.close t c)).1.cache ↔ (σ.step (.close t c)).1.cache.get? (t', a') = some c' :=
    ⟨fun h => Dict.get?_of_mem w2 h, Dict.get?_some_mem⟩
  rw [m1, m2]
  simp only [CacheSt.step]
  split
  · rename_i x u a hm
    dsimp only
    rw [Dict.get?_erase, if_neg]
    intro hk
    cases hk
    rcases h with h | h
    · exact h rfl
    · exact h u ((hb.made _ _ _).2 hm)
  · rfl

/-! ## Concrete histories -/
namespace Ex

/-- Thread 1 registers server 7, thread 2 server 8; thread 1 tries to register 9; server 7 is unregistered from thread 3. -/
def regEvs : List RegEv :=
  [.register 1 7, .register 2 8, .go 1, .go 2, .go 1, .go 2, .register 1 9, .get 2, .go 1, .get 1, .unregister 3 7, .go 3, .get 1]

example : (RegSt.run {} regEvs).2 =
    [.added 1 7, .added 2 8, .registered 1 7 (.ok ()), .registered 2 8 (.ok ()), .got 2 (some 8),
      .registered 1 9 (.error .keyError), .got 1 (some 7), .removed 1 7, .unregistered 3 7 (.ok ()), .got 1 none] := by
  decide +kernel

/-- The hypotheses of `C38_second_partial` hold in it, with a step of another thread in between. -/
example : (RegSt.run {} (regEvs.take 6)).1.pc 1 = .idle ∧ (∀ t', .registered t' 9 (.ok ()) ∉ (RegSt.run {} (regEvs.take 6)).2) ∧
    holder 1 (RegSt.run {} (regEvs.take 8)).2 = some 7 := by
  refine ⟨by decide +kernel, ?_, by decide +kernel⟩
  have : (RegSt.run {} (regEvs.take 6)).2 = [.added 1 7, .added 2 8, .registered 1 7 (.ok ()), .registered 2 8 (.ok ())] := by
    decide +kernel
  rw [this]; simp

/-- Two threads register different servers at the same time: the history is serial. -/
example : SerialReg [.register 1 7, .register 2 8, .go 1, .go 2] := by
  intro pre t s post h t' ht'
  match pre, h with
  | [], h => simp [RegSt.run, RegSt.registering]
  | [e], h =>
    simp at h
    obtain ⟨rfl, ⟨rfl, rfl⟩, -⟩ := h
    simp only [RegSt.run, RegSt.step, RegSt.register, RegSt.registering]
    by_cases h1 : t' = 1 <;> simp [h1, put]
  | [_, _], h => simp at h
  | [_, _, _], h => simp at h
  | _ :: _ :: _ :: _ :: _, h => simp at h

/-- C38 fails: two threads that register the same server at the same time both succeed, and the server is registered for both
(server.py:110-115: the check and the insertion are not one atomic step). -/
theorem C38_fails_race : ∃ es t t' s, t ≠ t' ∧ holder t (RegSt.run {} es).2 = some s ∧
    holder t' (RegSt.run {} es).2 = some s ∧ .registered t s (.ok ()) ∈ (RegSt.run {} es).2 ∧
    .registered t' s (.ok ()) ∈ (RegSt.run {} es).2 :=
  ⟨[.register 1 7, .register 2 7, .go 1, .go 2, .go 1, .go 2], 1, 2, 7, by decide +kernel⟩

/-- C38 fails: a server that was registered and unregistered can be "registered" again in the thread although another one is
registered: `register_server` returns without error and without effect (server.py:109-110, 118-125: `unregister_server`
leaves `srv._thread` set). -/
theorem C38_fails_again : ∃ es t s s', s ≠ s' ∧ holder t (RegSt.run {} es).2 = some s' ∧
    ((RegSt.run {} es).1.step (.register t s)).2 = [.registered t s (.ok ())] ∧
    holder t ((RegSt.run {} es).2 ++ ((RegSt.run {} es).1.step (.register t s)).2) = some s' :=
  ⟨[.register 1 7, .go 1, .go 1, .unregister 1 7, .go 1, .register 1 8, .go 1, .go 1], 1, 7, 8, by decide +kernel⟩

def adr : Bytes := [1]
def adr2 : Bytes := [2]

/-- Thread 1 makes client 0; while it connects, a request to thread 1's own server gets it and makes client 1 for another
address, which fails; thread 2 makes client 2; client 0 is closed and made anew. -/
def cacheEvs : List CacheEv :=
  [.get 1 adr, .get 1 adr, .get 1 adr2, .new 1 adr, .failed 1 .timeoutError, .connected 1, .new 2 adr, .connected 2, .close 1 0,
    .get 2 adr, .get 1 adr, .connected 1]

example : (CacheSt.run {} cacheEvs).2 =
    [.began 1 adr 0, .got 1 adr 0, .began 1 adr2 1, .refused 1 adr .keyError, .broke 1 adr2 1 .timeoutError, .got 1 adr 0,
      .began 2 adr 2, .got 2 adr 2, .closed 1 0, .got 2 adr 2, .began 1 adr 3, .got 1 adr 3] := by
  decide +kernel

theorem cacheEvs_orderly : Orderly cacheEvs := by
  intro pre t c post h
  have hp : pre = cacheEvs.take 8 ∧ t = 1 ∧ c = 0 := by
    unfold cacheEvs at h ⊢
    match pre, h with
    | [], h => simp at h
    | [_], h => simp at h
    | [_, _], h => simp at h
    | [_, _, _], h => simp at h
    | [_, _, _, _], h => simp at h
    | [_, _, _, _, _], h => simp at h
    | [_, _, _, _, _, _], h => simp at h
    | [_, _, _, _, _, _, _], h => simp at h
    | [_, _, _, _, _, _, _, _], h =>
      simp at h
      obtain ⟨rfl, rfl, rfl, rfl, rfl, rfl, rfl, rfl, ⟨rfl, rfl⟩, -⟩ := h
      simp
    | [_, _, _, _, _, _, _, _, _], h => simp at h
    | [_, _, _, _, _, _, _, _, _, _], h => simp at h
    | [_, _, _, _, _, _, _, _, _, _, _], h => simp at h
    | _ :: _ :: _ :: _ :: _ :: _ :: _ :: _ :: _ :: _ :: _ :: _ :: _, h => simp at h
  obtain ⟨rfl, rfl, rfl⟩ := hp
  have ho : (CacheSt.run {} (cacheEvs.take 8)).2 =
      [.began 1 adr 0, .got 1 adr 0, .began 1 adr2 1, .refused 1 adr .keyError, .broke 1 adr2 1 .timeoutError, .got 1 adr 0,
        .began 2 adr 2, .got 2 adr 2] := by decide +kernel
  rw [ho]
  exact ⟨⟨adr, by simp [Living]⟩, by decide +kernel⟩

/-- In it client 3 is alive for thread 1, so `C39_same_client_partial` applies. -/
example : Living (CacheSt.run {} cacheEvs).2 1 adr 3 := by
  have ho : (CacheSt.run {} cacheEvs).2 =
    [.began 1 adr 0, .got 1 adr 0, .began 1 adr2 1, .refused 1 adr .keyError, .broke 1 adr2 1 .timeoutError, .got 1 adr 0,
      .began 2 adr 2, .got 2 adr 2, .closed 1 0, .got 2 adr 2, .began 1 adr 3, .got 1 adr 3] := by
    decide +kernel
  rw [ho]; simp [Living]

/-- C40 fails: a client closed from another thread stays cached for its own thread, and the other thread's own client for the
same address, which is still open, is dropped from the cache (client.py:92-97 uses the current thread's ident). -/
theorem C40_fails : ∃ es t c c', c ≠ c' ∧ Living (CacheSt.run {} es).2 1 adr c ∧ Living (CacheSt.run {} es).2 2 adr c' ∧
    ((1, adr), c) ∈ ((CacheSt.run {} es).1.step (.close t c)).1.cache ∧
    ((2, adr), c') ∈ (CacheSt.run {} es).1.cache ∧ ((2, adr), c') ∉ ((CacheSt.run {} es).1.step (.close t c)).1.cache := by
  refine ⟨[.get 1 adr, .connected 1, .get 2 adr, .connected 2], 2, 0, 1, by decide, ?_, ?_, by decide +kernel, by decide +kernel,
    by decide +kernel⟩
  all_goals
    have ho : (CacheSt.run {} [.get 1 adr, .connected 1, .get 2 adr, .connected 2]).2 =
      [.began 1 adr 0, .got 1 adr 0, .began 2 adr 1, .got 2 adr 1] := by decide +kernel
    rw [ho]; simp [Living]

/-- C40 fails: closing a client for the second time drops the client made meanwhile for the same address from the cache. -/
theorem C40_fails_twice : ∃ es t c c', c ≠ c' ∧ Living (CacheSt.run {} es).2 t adr c' ∧
    ((t, adr), c') ∈ (CacheSt.run {} es).1.cache ∧ ((t, adr), c') ∉ ((CacheSt.run {} es).1.step (.close t c)).1.cache := by
  refine ⟨[.get 1 adr, .connected 1, .close 1 0, .get 1 adr, .connected 1], 1, 0, 1, by decide, ?_, by decide +kernel, by decide +kernel⟩
  have ho : (CacheSt.run {} [.get 1 adr, .connected 1, .close 1 0, .get 1 adr, .connected 1]).2 =
    [.began 1 adr 0, .got 1 adr 0, .closed 1 0, .began 1 adr 1, .got 1 adr 1] := by decide +kernel
  rw [ho]; simp [Living]

/-- C39 fails: after thread 2 has closed thread 1's client, `get_client` in thread 2 makes a second client for the address
although its first one is neither closed nor failed. -/
theorem C39_fails : ∃ es t c c', c ≠ c' ∧ Living (CacheSt.run {} es).2 t adr c ∧
    ((CacheSt.run {} es).1.step (.get t adr)).2 = [.began t adr c'] := by
  refine ⟨[.get 1 adr, .connected 1, .get 2 adr, .connected 2, .close 2 0], 2, 1, 2, by decide, ?_, by decide +kernel⟩
  have ho : (CacheSt.run {} [.get 1 adr, .connected 1, .get 2 adr, .connected 2, .close 2 0]).2 =
    [.began 1 adr 0, .got 1 adr 0, .began 2 adr 1, .got 2 adr 1, .closed 2 0] := by decide +kernel
  rw [ho]; simp [Living]

end Ex

namespace Ex

/-! ## The theorems on these cases -/

example : some 8 = holder 2 (RegSt.run {} (regEvs.take 7)).2 := C38_get_server (regEvs.take 7) (.get 2) 2 (some 8) (by decide +kernel)
example : none = holder 1 (RegSt.run {} (regEvs.take 12)).2 := C38_get_server (regEvs.take 12) (.get 1) 1 none (by decide +kernel)
example := C38_get_server_answers (regEvs.take 7) 2 (by decide +kernel)
/-- Thread 1, which has server 7, tries to register server 9 while thread 2 asks for its own. -/
example := C38_second_partial (regEvs.take 6) [.get 2] 1 9 (by decide +kernel)
  (by
    have : (RegSt.run {} (regEvs.take 6)).2 = [.added 1 7, .added 2 8, .registered 1 7 (.ok ()), .registered 2 8 (.ok ())] := by
      decide +kernel
    rw [this]; simp)
  (by simp [RegEv.by])
/-- Two threads register different servers at the same time. -/
theorem twoServers_serial : SerialReg [.register 1 7, .register 2 8, .go 1, .go 2] := by
  intro pre t s post h t' ht'
  match pre, h with
  | [], h => simp [RegSt.run, RegSt.registering]
  | [e], h =>
    simp at h
    obtain ⟨rfl, ⟨rfl, rfl⟩, -⟩ := h
    simp only [RegSt.run, RegSt.step, RegSt.register, RegSt.registering]
    by_cases h1 : t' = 1 <;> simp [h1, put]
  | [_, _], h => simp at h
  | [_, _, _], h => simp at h
  | _ :: _ :: _ :: _ :: _, h => simp at h
example (t : Nat) (h : holder t (RegSt.run {} [.register 1 7, .register 2 8, .go 1, .go 2]).2 = some 7) : t = 1 :=
  C38_one_thread_partial _ twoServers_serial t 1 7 h (by decide +kernel)

theorem orderly_take {es} (h : Orderly es) (n) : Orderly (es.take n) := fun pre t c post he =>
  h pre t c (post ++ es.drop n) (by rw [← List.cons_append, ← List.append_assoc, ← he, List.take_append_drop])

theorem cacheEvs_living : Living (CacheSt.run {} cacheEvs).2 1 adr 3 := by
  have ho : (CacheSt.run {} cacheEvs).2 =
    [.began 1 adr 0, .got 1 adr 0, .began 1 adr2 1, .refused 1 adr .keyError, .broke 1 adr2 1 .timeoutError, .got 1 adr 0,
      .began 2 adr 2, .got 2 adr 2, .closed 1 0, .got 2 adr 2, .began 1 adr 3, .got 1 adr 3] := by
    decide +kernel
  rw [ho]; simp [Living]
example := C39_same_client_partial cacheEvs cacheEvs_orderly 1 adr 3 cacheEvs_living
/-- After thread 1 has closed its client: none is alive. -/
example := C39_new_client_partial (cacheEvs.take 9) (orderly_take cacheEvs_orderly 9) 1 adr (by
  have ho : (CacheSt.run {} (cacheEvs.take 9)).2 =
    [.began 1 adr 0, .got 1 adr 0, .began 1 adr2 1, .refused 1 adr .keyError, .broke 1 adr2 1 .timeoutError, .got 1 adr 0,
      .began 2 adr 2, .got 2 adr 2, .closed 1 0] := by
    decide +kernel
  rw [ho]
  rintro c ⟨h1, h2, h3⟩
  simp [adr, adr2] at h1 h2
  exact h2 h1)
example := C39_returned_partial (cacheEvs.take 9) (orderly_take cacheEvs_orderly 9) (.get 2 adr) 2 adr 2 (by decide +kernel)
example := C39_failed (cacheEvs.take 4) (.failed 1 .timeoutError) 1 adr2 1 .timeoutError (by decide +kernel)
example (k : Nat × Bytes) (c : Nat) := C40_close_partial (cacheEvs.take 8) 1 0 (orderly_take cacheEvs_orderly 9) k c
/-- Thread 2's client for the same address, and thread 1's for another address. -/
example (c' : Nat) := C40_others (cacheEvs.take 8) 1 0 2 adr (.inl (by decide)) c'
example (c' : Nat) := C40_others (cacheEvs.take 8) 1 0 1 adr2 (.inr (by
  have ho : (CacheSt.run {} (cacheEvs.take 8)).2 =
    [.began 1 adr 0, .got 1 adr 0, .began 1 adr2 1, .refused 1 adr .keyError, .broke 1 adr2 1 .timeoutError, .got 1 adr 0,
      .began 2 adr 2, .got 2 adr 2] := by
    decide +kernel
  rw [ho]; simp [adr, adr2])) c'

end Ex

end Verif
