import Verif.Proof.Relay
import Verif.Props.Serializer
import Verif.Props.GetValue
import Verif.Props.Refs
/-!
# C120: messages handed on through any number of processes

Process `a.sender` sends `v` over hop `a`; what arrives is handed on over the hops `hs`, in order.
-/
namespace Verif
open Ex

theorem received_kept {R : RecvEnv} {p : Proxy} (h : ∀ addr unwrap, R.server = some (addr, unwrap) → p.addr ≠ addr) :
    received R p = .ok (.proxy p) := by
  unfold received
  split
  · rename_i addr unwrap hs; rw [if_neg (h addr unwrap hs)]
  · rfl

theorem byProxy_kept {A : SendEnv} {R : RecvEnv} {t : Refs} (hno : NotOwner A R) {u u' : Val} (h : ByProxy A R t u u')
    (hq : ∀ p, u = .proxy p → ∀ addr unwrap, R.server = some (addr, unwrap) → p.addr ≠ addr) :
    ∃ p, u' = .proxy p ∧ ∀ R2 : RecvEnv, (NotOwner A R2) →
      (∀ p, u = .proxy p → ∀ addr unwrap, R2.server = some (addr, unwrap) → p.addr ≠ addr) →
      received R2 p = .ok (.proxy p) ∧ ByProxy A R2 t u (.proxy p) := by
  cases u <;> simp only [ByProxy] at h
  case proxy p =>
    rw [received_kept (hq p rfl)] at h
    simp only [Except.ok.injEq] at h
    exact ⟨p, h.symm, fun R2 _ h2 => by
      have := received_kept (h2 p rfl)
      exact ⟨this, by simpa only [ByProxy] using this⟩⟩
  all_goals
    obtain ⟨p, rfl, g1, g2, g3, g4⟩ := h
    refine ⟨p, rfl, fun R2 hn2 _ => ⟨received_kept ?_, ?_⟩⟩
    · intro addr unwrap hs he
      exact hn2 addr unwrap hs (by rw [g1, he])
    · simp only [ByProxy]; exact ⟨p, rfl, g1, g2, g3, g4⟩

/-- The last receiver of a longer way. -/
theorem lastReceiver_cons (a b : Hop) (hs : List Hop) : lastReceiver a (b :: hs) = lastReceiver b hs := by
  simp only [lastReceiver, List.getLast_cons_cons]

theorem relay_rest {L : Lib} {A : SendEnv} {t : Refs} {v : Val} (hp : Packable L A.tys v) (hn : v.depth ≤ 512) :
    ∀ (hs : List Hop) (a : Hop) (v1 : Val), a.receiver.lib = L → a.PassesOn A v → Sendable a.receiver v →
      (∀ b ∈ hs, b.Proper L ∧ b.PassesOn A v) →
      Arrives A.tys (ByProxy A a.receiver t) v v1 →
      ∃ v2, relay hs v1 = (hs.map (·.table), .ok v2) ∧ Arrives A.tys (ByProxy A (lastReceiver a hs) t) v v2 ∧
        Sendable (lastReceiver a hs) v
  | [], a, v1, _, _, hs, _, hA => ⟨v1, rfl, hA, hs⟩
  | b :: hs, a, v1, hR, hpa, hs1, hall, hA => by
    obtain ⟨hb, hpb⟩ := hall b (by simp)
    have hsend : ∀ u u', ByProxy A a.receiver t u u' →
        (∀ p, u = .proxy p → (∀ addr unwrap, a.receiver.server = some (addr, unwrap) → p.addr ≠ addr) ∧
          ∀ addr unwrap, b.receiver.server = some (addr, unwrap) → p.addr ≠ addr) → 
        ∃ p, u' = .proxy p ∧ received b.receiver p = .ok (.proxy p) ∧ ByProxy A b.receiver t u (.proxy p) := by
      intro u u' h hq
      obtain ⟨p, rfl, h2⟩ := byProxy_kept hpa.notOwner h (fun p hp => (hq p hp).1)
      obtain ⟨h3, h4⟩ := h2 b.receiver hpb.notOwner (fun p hp => (hq p hp).2)
      exact ⟨p, rfl, h3, h4⟩
    have hboth := proxiesIn_and v hpa.proxies hpb.proxies
    obtain ⟨c1, c2, c3⟩ := arrived_portable (L := L) hpb.types
      (fun u u' h hq => by obtain ⟨p, h1, _⟩ := hsend u u' h hq; exact ⟨p, h1⟩) v v1 hp hboth hA
    obtain ⟨w, hw⟩ := dumps_plain hb.link.laws hb.link.sender hb.link.types b.table c1 (by omega) c2
    have hs2 : Sendable b.receiver v1 := by
      refine sendable_arrived (hR.trans hb.link.receiver.symm) (fun u u' h hq => ?_) v v1 hs1 hboth hA
      obtain ⟨p, rfl, h1, _⟩ := hsend u u' h hq
      simp only [Sendable]; exact ⟨_, h1⟩
    have hs3 : Sendable b.receiver v := sendable_moves (hR.trans hb.link.receiver.symm) v hs1
      (proxiesIn_imp (fun p h => ⟨_, received_kept h⟩) v hpb.proxies)
    obtain ⟨hist, hr, ha⟩ := hb.table
    obtain ⟨v2, e1, e2⟩ := C17_msgpack_transport hb.link hr ha hs2 hw
    have hA2 : Arrives A.tys (ByProxy A b.receiver t) v v2 := by
      refine arrives_comp (R := a.receiver) hb.link.types hpb.types ?_ v v1 v2 hs1 hboth hA e2
      intro u u' u'' h hq hx
      obtain ⟨p, rfl, h1, h2⟩ := hsend u u' h hq
      simp only [Arrives, ByProxy] at hx
      rw [h1] at hx
      simp only [Except.ok.injEq] at hx
      subst hx
      exact h2
    obtain ⟨v3, f1, f2, f3⟩ := relay_rest hp hn hs b v2 hb.link.receiver hpb hs3 (fun c hc => hall c (by simp [hc])) hA2
    refine ⟨v3, ?_, ?_, ?_⟩
    · simp only [relay, hw, e1, f1, List.map_cons]
    · rw [lastReceiver_cons]; exact f2
    · rw [lastReceiver_cons]; exact f3

/-- **C120.** A supported value sent by `a.sender` and handed on through any number of processes gets through. The
last receiver gets what it would get from `a.sender` directly: the same value at every depth, and for an object
sent by proxy a proxy of `a.sender`'s server that resolves there to that object. The processes in between leave
their own tables alone, and need no server of their own. -/
theorem C120_relayed {L : Lib} {a : Hop} {hs : List Hop} {v : Val} (hall : ∀ b ∈ a :: hs, b.Proper L)
    (hpass : ∀ b ∈ a :: hs, b.PassesOn a.sender v)
    (hs0 : Sendable a.receiver v) (hp : Packable L a.sender.tys v) (hn : v.depth ≤ 512)
    (hf : a.sender.server ≠ none ∨ ¬ Foreign a.sender.tys v) :
    ∃ t w v', msgpackDumps a.sender a.table v = (t, .ok w) ∧
      relay (a :: hs) v = (t :: hs.map (·.table), .ok v') ∧
      Arrives a.sender.tys (ByProxy a.sender (lastReceiver a hs) t) v v' := by
  have ha := hall a (by simp)
  obtain ⟨t, w, hd⟩ := (packT (ha.link.sender ▸ ha.link.laws) ha.link.types 512 a.table v
    (ha.link.sender ▸ hp) hn).1 hf
  obtain ⟨hist, hr, hal⟩ := ha.table
  obtain ⟨v1, e1, e2⟩ := C17_msgpack_transport ha.link hr hal hs0 hd
  obtain ⟨v', f1, f2, -⟩ := relay_rest hp hn hs a v1 ha.link.receiver (hpass a (by simp)) hs0
    (fun b hb => ⟨hall b (by simp [hb]), hpass b (by simp [hb])⟩) e2
  refine ⟨t, w, v', hd, ?_, f2⟩
  have hd' : msgpackDumps a.sender a.table v = (t, .ok w) := hd
  simp only [relay, hd', e1, f1]

/-- **C120.** A value that one transport restores identically is restored identically by any number of them. -/
theorem C120_exact {L : Lib} {a : Hop} {hs : List Hop} {v : Val} (hall : ∀ b ∈ a :: hs, b.Proper L)
    (hpass : ∀ b ∈ a :: hs, b.PassesOn a.sender v)
    (hs0 : Sendable a.receiver v) (hp : Packable L a.sender.tys v) (hn : v.depth ≤ 512)
    (hf : a.sender.server ≠ none ∨ ¬ Foreign a.sender.tys v)
    (hx : Exact a.sender.tys (fun p => ∀ b ∈ a :: hs, received b.receiver p = .ok (.proxy p)) v) :
    (relay (a :: hs) v).2 = .ok v := by
  obtain ⟨t, w, v', _, h2, h3⟩ := C120_relayed hall hpass hs0 hp hn hf
  rw [h2]
  have hmem : ∃ b ∈ a :: hs, lastReceiver a hs = b.receiver := ⟨_, List.getLast_mem (by simp), rfl⟩
  obtain ⟨b, hb, he⟩ := hmem
  rw [exact_arrives v v' (exact_imp (fun p h => by rw [he]; exact h b hb) v hx) h3]

theorem relay_append : ∀ (hs : List Hop) (zs : List Hop) (v v' : Val) (ts : List Refs),
    relay hs v = (ts, .ok v') → relay (hs ++ zs) v = (ts ++ (relay zs v').1, (relay zs v').2)
  | [], zs, v, v', ts, h => by
    simp only [relay, Prod.mk.injEq, Except.ok.injEq] at h
    obtain ⟨rfl, rfl⟩ := h; simp
  | a :: hs, zs, v, v', ts, h => by
    simp only [relay, List.cons_append] at h ⊢
    split at h
    · simp at h
    · rename_i t w hd
      split at h
      · simp at h
      · rename_i v1 hl
        rw [hl] at *
        simp only [Prod.mk.injEq] at h
        obtain ⟨rfl, h⟩ := h
        rw [relay_append hs zs v1 v' _ (Prod.ext rfl h)]
        simp

/-- **C120.** After any number of hops the message is sent back to its origin, which still holds what it handed
out: wherever it had sent an object by proxy, it finds that very object again. -/
theorem C120_home {L : Lib} {a : Hop} {hs : List Hop} {z : Hop} {v : Val} {addrA} {view : Obj → Val} {ga : GetAttr}
    {tA2 : Refs} (hall : ∀ b ∈ a :: hs, b.Proper L) (hpass : ∀ b ∈ a :: hs, b.PassesOn a.sender v)
    (hz : z.Proper L) (hztys : ∀ ty ∈ a.sender.tys, ty ∈ z.sender.tys)
    (hown : a.sender.server = some addrA) (hra : z.receiver.server = some (addrA, tA2.unwrap view ga))
    (hzp : ProxiesIn (fun p => ∃ x, received z.receiver p = .ok x) v)
    (hkeep : ∀ oid o, (msgpackDumps a.sender a.table v).1.lookup oid = .ok o → tA2.lookup oid = .ok o)
    (hs0 : Sendable a.receiver v) (hp : Packable L a.sender.tys v) (hn : v.depth ≤ 512) :
    ∃ v', (relay (a :: hs ++ [z]) v).2 = .ok v' ∧ Arrives a.sender.tys (BackHome a.sender z.receiver view) v v' := by
  obtain ⟨t, w, v1, hd, hrl, hA⟩ := C120_relayed hall hpass hs0 hp hn (Or.inl (by rw [hown]; simp))
  rw [hd] at hkeep
  obtain ⟨b, hb, he⟩ : ∃ b ∈ a :: hs, lastReceiver a hs = b.receiver := ⟨_, List.getLast_mem (by simp), rfl⟩
  rw [he] at hA
  have hpb := hpass b hb
  have hsb : Sendable b.receiver v :=
    sendable_moves ((hall a (by simp)).link.receiver.trans (hall b hb).link.receiver.symm) v hs0
      (proxiesIn_imp (fun p h => ⟨_, received_kept h⟩) v hpb.proxies)
  have hboth := proxiesIn_and v hpb.proxies hzp
  have home : ∀ u u', ByProxy a.sender b.receiver t u u' →
      (∀ p, u = .proxy p → (∀ addr unwrap, b.receiver.server = some (addr, unwrap) → p.addr ≠ addr) ∧
        ∃ x, received z.receiver p = .ok x) →
      ∃ p x, u' = .proxy p ∧ received z.receiver p = .ok x ∧ BackHome a.sender z.receiver view u x := by
    intro u u' h hq
    cases u <;> simp only [ByProxy] at h
    case proxy p =>
      obtain ⟨q1, x, q2⟩ := hq p rfl
      rw [received_kept q1] at h
      simp only [Except.ok.injEq] at h
      exact ⟨p, x, h.symm, q2, by simpa only [BackHome] using q2⟩
    all_goals
      obtain ⟨p, rfl, g1, g2, g3, -⟩ := h
      rw [hown] at g1
      simp only [Option.some.injEq] at g1
      exact ⟨p, _, rfl, by simp only [received, hra, g1, if_true, Refs.unwrap, hkeep _ _ g2, g3, getattrs], rfl⟩
  obtain ⟨c1, c2, c3⟩ := arrived_portable (L := L) hztys
    (fun u u' h hq => by obtain ⟨p, _, h1, _⟩ := home u u' h hq; exact ⟨p, h1⟩) v v1 hp hboth hA
  obtain ⟨wz, hwz⟩ := dumps_plain hz.link.laws hz.link.sender hz.link.types z.table c1 (by omega) c2
  have hs1 : Sendable z.receiver v1 := by
    refine sendable_arrived ((hall b hb).link.receiver.trans hz.link.receiver.symm) (fun u u' h hq => ?_) v v1 hsb hboth hA
    obtain ⟨p, x, rfl, h1, _⟩ := home u u' h hq
    simp only [Sendable]; exact ⟨_, h1⟩
  obtain ⟨hist, hr, hal⟩ := hz.table
  obtain ⟨v2, e1, e2⟩ := C17_msgpack_transport hz.link hr hal hs1 hwz
  refine ⟨v2, ?_, ?_⟩
  · rw [relay_append _ _ _ _ _ hrl]
    simp only [relay, hwz, e1]
  · refine arrives_comp (R := b.receiver) hz.link.types hztys ?_ v v1 v2 hsb hboth hA e2
    intro u u' u'' h hq hx
    obtain ⟨p, x, rfl, h1, h2⟩ := home u u' h hq
    simp only [Arrives, ByProxy] at hx
    rw [h1] at hx
    simp only [Except.ok.injEq] at hx
    subst hx
    exact h2

/-- **C120.** A proxy handed on through any number of processes that do not own it stays the same proxy (same
server, object, reference and attributes), and the owner makes of it what it makes of any copy of the proxy. -/
theorem C120_proxy {L : Lib} {a : Hop} {hs : List Hop} {z : Hop} (p : Proxy) (hall : ∀ b ∈ a :: hs, b.Proper L)
    (hpass : ∀ b ∈ a :: hs, b.PassesOn a.sender (.proxy p)) (hz : z.Proper L) :
    (relay (a :: hs) (.proxy p)).2 = .ok (.proxy p) ∧
    (relay (a :: hs ++ [z]) (.proxy p)).2 = received z.receiver p := by
  have hk : ∀ b ∈ a :: hs, received b.receiver p = .ok (.proxy p) := by
    intro b hb
    have := (hpass b hb).proxies
    simp only [ProxiesIn] at this
    exact received_kept this
  have hx := C120_exact hall hpass (by simp only [Sendable]; exact ⟨_, hk a (by simp)⟩) (by simp [Packable])
    (by simp [Val.depth]) (Or.inr (by simp [Foreign])) (by simp only [Exact]; exact hk)
  refine ⟨hx, ?_⟩
  rw [relay_append _ _ _ _ _ (Prod.ext rfl hx)]
  obtain ⟨hist, hr, hal⟩ := hz.table
  obtain ⟨w, hw⟩ := dumps_plain hz.link.laws hz.link.sender hz.link.types z.table (v := .proxy p) (by simp [Packable])
    (by simp [Val.depth]) (by simp [Foreign])
  have h2 : msgpackLoads z.receiver w = received z.receiver p :=
    pack_proxy_read (R := z.receiver) hz.link (n := 511) (tableOk_of_reach hr hal) hw
  simp only [relay, hw, h2]
  cases received z.receiver p <;> rfl

/-- **C120.** As `RPCClient.delete` documents for a proxy sent to a third process: all copies share one reference.
However often the proxy was handed on, the owner resolves it as long as some reference to its object is
outstanding, and raises `KeyError` once all are deleted. -/
theorem C120_shared {L : Lib} {a : Hop} {hs : List Hop} {z : Hop} (p : Proxy) (hall : ∀ b ∈ a :: hs, b.Proper L)
    (hpass : ∀ b ∈ a :: hs, b.PassesOn a.sender (.proxy p)) (hz : z.Proper L)
    {idOf hist t} {view : Obj → Val} {ga : GetAttr} (hr : Reach idOf hist t)
    (hra : z.receiver.server = some (p.addr, t.unwrap view ga)) :
    (∀ x ∈ outstanding hist, x.oid = p.oid → ∀ y, AttrChain ga (view x.obj) p.attrs y →
      (relay (a :: hs ++ [z]) (.proxy p)).2 = .ok y) ∧
    ((∀ x ∈ outstanding hist, x.oid ≠ p.oid) → (relay (a :: hs ++ [z]) (.proxy p)).2 = .error .keyError) := by
  rw [(C120_proxy p hall hpass hz).2]
  simp only [received, hra, if_true, Refs.unwrap]
  constructor
  · intro x hx ho y hy
    rw [(C01_resolvable_iff_outstanding hr p.oid x.obj).2 ⟨x, hx, ho, rfl⟩]
    exact getattrs_ok_iff.2 hy
  · intro h
    rw [C01_unresolvable_keyError hr _ h]

/-! ## An example: A, then B, then C, which has no server, then B again -/

/-- A to B. -/
def hopAB : Hop := ⟨sendA, Refs.init, recvB⟩
/-- B to C, a process without a server. -/
def hopBC : Hop := ⟨sendB, Refs.init, ⟨lib, none⟩⟩
/-- C to B. -/
def hopCB : Hop := ⟨sendNone, Refs.init, recvB⟩
/-- The message: an object of A's, a tuple of a pickled object, and a proxy of D's. -/
def exMsg : Val := .dict [(.str "o", .obj 5 [.user 1]), (.str "l", .list [.tuple [.obj 2 [.sharedMemory], .int 7]]),
  (.str "p", .proxy ⟨"tcp://d:9", 4, 5, "T", ["a", "b"]⟩)]

theorem exHops_proper : ∀ b ∈ [hopAB, hopBC, hopCB], b.Proper lib := by
  intro b hb
  simp only [List.mem_cons, List.not_mem_nil, or_false] at hb
  rcases hb with rfl | rfl | rfl
  · exact ⟨linkAB, [], .init, alive _ _ rfl⟩
  · exact ⟨⟨laws, rfl, rfl, fun _ h => h, fun _ _ h => by simp [hopBC] at h⟩, [], .init, alive _ _ rfl⟩
  · exact ⟨linkNone, [], .init, alive _ _ rfl⟩

theorem exHops_pass : ∀ b ∈ [hopAB, hopBC, hopCB], b.PassesOn sendA exMsg := by
  intro b hb
  simp only [List.mem_cons, List.not_mem_nil, or_false] at hb
  rcases hb with rfl | rfl | rfl
  · refine ⟨fun _ h => h, linkAB.notOwner, ?_⟩
    simp only [exMsg, ProxiesIn, ProxiesInD, ProxiesInL, hopAB, recvB, and_true, true_and, Option.some.injEq,
      Prod.mk.injEq]
    rintro addr u ⟨rfl, -⟩; decide
  · refine ⟨fun _ h => h, fun _ _ h => by simp [hopBC] at h, ?_⟩
    simp [exMsg, ProxiesIn, ProxiesInD, ProxiesInL, hopBC]
  · refine ⟨fun _ h => h, linkAB.notOwner, ?_⟩
    simp only [exMsg, ProxiesIn, ProxiesInD, ProxiesInL, hopCB, recvB, and_true, true_and, Option.some.injEq,
      Prod.mk.injEq]
    rintro addr u ⟨rfl, -⟩; decide

example : ∃ t w v', msgpackDumps sendA Refs.init exMsg = (t, .ok w) ∧
    relay [hopAB, hopBC, hopCB] exMsg = ([t, Refs.init, Refs.init], .ok v') ∧
    Arrives sendA.tys (ByProxy sendA recvB t) exMsg v' :=
  C120_relayed (a := hopAB) (hs := [hopBC, hopCB]) exHops_proper exHops_pass
    (by
      simp only [exMsg, Sendable, SendableD, SendableL, KeysOk]
      exact ⟨⟨by simp [keyOk], by simp [keyEq], by simp [lookupStr, encodeKey]⟩, trivial, by trivial, ⟨_, rfl⟩, trivial⟩)
    (by
      simp only [exMsg, Packable, PackableD, PackableL]
      exact ⟨by simp [keyOk], fun h => absurd h (by decide), ⟨⟨fun _ => ⟨_, rfl⟩, trivial, trivial⟩, trivial⟩, trivial, trivial⟩)
    (by simp [exMsg, Val.depth, depthD, depthL]) (Or.inl (by simp [hopAB, sendA]))

theorem exVal_pass : ∀ b ∈ [hopAB, hopBC, hopCB], b.PassesOn sendA exVal := by
  intro b hb
  simp only [List.mem_cons, List.not_mem_nil, or_false] at hb
  rcases hb with rfl | rfl | rfl
  · refine ⟨fun _ h => h, linkAB.notOwner, ?_⟩
    simp only [exVal, ProxiesIn, ProxiesInD, ProxiesInL, hopAB, recvB, and_true, true_and, Option.some.injEq,
      Prod.mk.injEq]
    rintro addr u ⟨rfl, -⟩; decide
  · refine ⟨fun _ h => h, fun _ _ h => by simp [hopBC] at h, ?_⟩
    simp [exVal, ProxiesIn, ProxiesInD, ProxiesInL, hopBC]
  · refine ⟨fun _ h => h, linkAB.notOwner, ?_⟩
    simp only [exVal, ProxiesIn, ProxiesInD, ProxiesInL, hopCB, recvB, and_true, true_and, Option.some.injEq,
      Prod.mk.injEq]
    rintro addr u ⟨rfl, -⟩; decide

example : (relay [hopAB, hopBC, hopCB] exVal).2 = .ok exVal :=
  C120_exact (a := hopAB) (hs := [hopBC, hopCB]) exHops_proper exVal_pass exVal_sendable exVal_packable
    (by simp [exVal, Val.depth, depthD, depthL]) (Or.inl (by simp [hopAB, sendA]))
    (by
      simp [exVal, Exact, ExactD, ExactL, received, recvB, hopAB, hopBC, hopCB,
        show (Val.obj 2 [.sharedMemory]).isinstance sendA.tys = true from rfl])

/-- B to A, which still holds the object it sent. -/
def hopBA : Hop := ⟨sendB, Refs.init, recvA⟩

theorem hopBA_proper : hopBA.Proper lib :=
  ⟨⟨laws, rfl, rfl, fun _ h => h, fun a u h => by
    simp only [hopBA, recvA, Option.some.injEq, Prod.mk.injEq] at h
    rw [← h.1]; decide⟩, [], .init, alive _ _ rfl⟩

theorem exForeign_pass : ∀ b ∈ [hopAB, hopBC, hopCB], b.PassesOn sendA exForeign := by
  intro b hb
  simp only [List.mem_cons, List.not_mem_nil, or_false] at hb
  rcases hb with rfl | rfl | rfl
  · exact ⟨fun _ h => h, linkAB.notOwner, by simp [exForeign, ProxiesIn, ProxiesInD, ProxiesInL]⟩
  · exact ⟨fun _ h => h, fun _ _ h => by simp [hopBC] at h, by simp [exForeign, ProxiesIn, ProxiesInD, ProxiesInL]⟩
  · exact ⟨fun _ h => h, linkAB.notOwner, by simp [exForeign, ProxiesIn, ProxiesInD, ProxiesInL]⟩

example : ∃ v', (relay [hopAB, hopBC, hopCB, hopBA] exForeign).2 = .ok v' ∧
    Arrives sendA.tys (BackHome sendA recvA view) exForeign v' :=
  C120_home (a := hopAB) (hs := [hopBC, hopCB]) (z := hopBA) (addrA := "tcp://a:1") (view := view) (ga := ga)
    (tA2 := exForeignTable) exHops_proper exForeign_pass hopBA_proper (fun _ h => h) rfl rfl
    (by simp [exForeign, ProxiesIn, ProxiesInD, ProxiesInL]) (fun _ _ h => h)
    (by
      simp only [exForeign, Sendable, SendableD, SendableL, KeysOk]
      exact ⟨⟨by simp [keyOk], by simp, by simp [lookupStr, encodeKey]⟩, by trivial⟩)
    (by
      simp only [exForeign, Packable, PackableD, PackableL]
      exact ⟨by simp [keyOk], ⟨trivial, fun h => absurd h (by decide), trivial⟩, trivial⟩)
    (by simp [exForeign, Val.depth, depthD, depthL])
example : (relay [hopAB, hopBC, hopCB, hopBA] exForeign).2 = .ok exForeign := rfl
-- a proxy of an object A holds, and one of an object it does not
example : (relay [hopBC, hopCB, hopBA] (.proxy ⟨"tcp://a:1", 0, 0, "T", ["x", "y"]⟩)).2 = .ok (.int 42) ∧
    (relay [hopBC, hopCB, hopBA] (.proxy ⟨"tcp://a:1", 3, 0, "T", []⟩)).2 = .error .keyError := ⟨rfl, rfl⟩

open Ex

/-! ## Proxies handed on -/

/-- Hops C to B, B to C and C to B pass a proxy on unless it is B's. -/
theorem hops_pass {p : Proxy} (h : p.addr ≠ "tcp://b:2") : ∀ b ∈ hopCB :: [hopBC, hopCB], b.PassesOn hopCB.sender (.proxy p) := by
  intro b hb
  simp only [List.mem_cons, List.not_mem_nil, or_false] at hb
  have hn : ∀ R, NotOwner hopCB.sender R := fun R a u _ => by simp [hopCB, sendNone]
  have hB : ∀ addr unwrap, recvB.server = some (addr, unwrap) → p.addr ≠ addr := by
    intro addr u h2
    simp only [recvB, Option.some.injEq, Prod.mk.injEq] at h2
    rw [← h2.1]; exact h
  rcases hb with rfl | rfl | rfl
  · exact ⟨fun _ h => h, hn _, by simp only [ProxiesIn]; exact hB⟩
  · exact ⟨fun _ h => h, hn _, by simp [ProxiesIn, hopBC]⟩
  · exact ⟨fun _ h => h, hn _, by simp only [ProxiesIn]; exact hB⟩
theorem hops_proper : ∀ b ∈ hopCB :: [hopBC, hopCB], b.Proper lib := by
  intro b hb
  simp only [List.mem_cons, List.not_mem_nil, or_false] at hb
  exact exHops_proper b (by rcases hb with rfl | rfl | rfl <;> simp)

example : (relay [hopCB, hopBC, hopCB, hopBA] (.proxy ⟨"tcp://a:1", 0, 0, "T", ["x", "y"]⟩)).2 =
    received recvA ⟨"tcp://a:1", 0, 0, "T", ["x", "y"]⟩ :=
  (C120_proxy (a := hopCB) (hs := [hopBC, hopCB]) (z := hopBA) ⟨"tcp://a:1", 0, 0, "T", ["x", "y"]⟩ hops_proper
    (hops_pass (by decide)) hopBA_proper).2

/-- B to A, which has handed out objects 9 and 8 since. -/
def hopBA2 : Hop := ⟨sendB, Refs.init, ⟨lib, some ("tcp://a:1", exTable.unwrap view ga)⟩⟩
theorem hopBA2_proper : hopBA2.Proper lib :=
  ⟨⟨laws, rfl, rfl, fun _ h => h, fun a u h => by
    simp only [hopBA2, Option.some.injEq, Prod.mk.injEq] at h
    rw [← h.1]; decide⟩, [], .init, alive _ _ rfl⟩
/-- Proxy 1 is outstanding, proxy 0 was deleted. -/
example : (relay [hopCB, hopBC, hopCB, hopBA2] (.proxy ⟨"tcp://a:1", 1, 1, "T", []⟩)).2 = .ok (view 9) :=
  (C120_shared (a := hopCB) (hs := [hopBC, hopCB]) (z := hopBA2) ⟨"tcp://a:1", 1, 1, "T", []⟩ hops_proper (hops_pass (by decide))
    hopBA2_proper exReach rfl).1 ⟨1, 1, 9⟩ (by decide) rfl _ (.nil _)
example : (relay [hopCB, hopBC, hopCB, hopBA2] (.proxy ⟨"tcp://a:1", 0, 0, "T", ["x"]⟩)).2 = .error .keyError :=
  (C120_shared (a := hopCB) (hs := [hopBC, hopCB]) (z := hopBA2) ⟨"tcp://a:1", 0, 0, "T", ["x"]⟩ hops_proper (hops_pass (by decide))
    hopBA2_proper exReach rfl).2 (by decide)

end Verif
