import Verif.Props.ServerNames
import Verif.Props.Refs
/-!
# Properties C69 and C70: more about servers
-/
namespace Verif
open Ex (lib laws heap srv msg self)

/-! ## C69 -/

theorem run_append_state (s : Srv) : ∀ (a b : List Ev), (s.run (a ++ b)).1 = ((s.run a).1.run b).1
  | [], _ => rfl
  | e :: a, b => run_append_state (s.step e).1 a b

theorem liveRun_append {idOf} : ∀ (a b : List Ev) (s : Srv), LiveRun idOf s (a ++ b) → LiveRun idOf s a ∧ LiveRun idOf (s.run a).1 b
  | [], _, _, h => ⟨trivial, h⟩
  | e :: a, b, s, ⟨h1, h2, h3⟩ => by
    obtain ⟨h4, h5⟩ := liveRun_append a b (s.step e).1 h3
    exact ⟨⟨h1, h2, h4⟩, h5⟩

theorem handedOut_append2 (a b : RefHistory) : handedOut (a ++ b) = handedOut a ++ handedOut b := by
  simp [handedOut]

/-- **C69.** Whatever messages a server gets and whatever its process does, an object id that once stood for an object
never stands for another one, at any later time, even if the object died and its `id()` was reused. -/
theorem C69_object_ids_never_reused {addr : String} {tys : List Ty} {self : Val} {idOf : Obj → Nat} {es es' : List Ev}
    (hl : LiveRun idOf (Srv.init addr tys self) (es ++ es')) {oid : Nat} {o o' : Obj}
    (h1 : ((Srv.init addr tys self).run es).1.refs.lookup oid = .ok o)
    (h2 : ((Srv.init addr tys self).run (es ++ es')).1.refs.lookup oid = .ok o') : o = o' := by
  obtain ⟨hl1, hl2⟩ := liveRun_append es es' _ hl
  obtain ⟨ha, hr1⟩ := run_reach es (Srv.init addr tys self) [] .init hl1
  obtain ⟨hb, hr2⟩ := run_reach es' _ _ hr1 hl2
  rw [← run_append_state] at hr2
  obtain ⟨x, hx, hx1, hx2⟩ := (C01_resolvable_iff_outstanding hr1 oid o).1 h1
  obtain ⟨y, hy, hy1, hy2⟩ := (C01_resolvable_iff_outstanding hr2 oid o').1 h2
  rw [← hx2, ← hy2]
  refine C04_no_stale_aliasing hr2 ?_ (hr2.inv.sub y hy) (hx1.trans hy1.symm)
  rw [handedOut_append2]
  exact List.mem_append_left _ (hr1.inv.sub x hx)

/-- **C69.** At any time at most one object id stands for an object. -/
theorem C69_one_id_per_object {addr : String} {tys : List Ty} {self : Val} {idOf : Obj → Nat} {es : List Ev}
    (hl : LiveRun idOf (Srv.init addr tys self) es) {oid oid' : Nat} {o : Obj}
    (h1 : ((Srv.init addr tys self).run es).1.refs.lookup oid = .ok o)
    (h2 : ((Srv.init addr tys self).run es).1.refs.lookup oid' = .ok o) : oid = oid' := by
  obtain ⟨ha, hr⟩ := run_reach es (Srv.init addr tys self) [] .init hl
  obtain ⟨x, hx, hx1, hx2⟩ := (C01_resolvable_iff_outstanding hr oid o).1 h1
  obtain ⟨y, hy, hy1, hy2⟩ := (C01_resolvable_iff_outstanding hr oid' o).1 h2
  rw [← hx1, ← hy1]
  exact (C03_object_id_iff_same_object hr hx hy).2 (hx2.trans hy2.symm)

/-- a request by proxy of a published object, whose reference is deleted, then the object is requested again -/
def exObjIds : List Ev := [.publish heap (.str "x") (.obj 7 [.user 1]), msg 65 [1] 10 21 30 [1], msg 65 [2] 17 20 30 [4], msg 66 [1] 10 20 31 [1]]
example : LiveRun heap.idOf srv exObjIds := ⟨rfl, Ex.liveHeap _, rfl, Ex.liveHeap _, rfl, Ex.liveHeap _, rfl, Ex.liveHeap _, trivial⟩
example : (srv.run (exObjIds.take 2)).1.refs.lookup 0 = .ok 7 ∧ (srv.run (exObjIds.take 3)).1.refs.lookup 0 = .error .keyError ∧
    (srv.run exObjIds).1.refs.lookup 1 = .ok 7 := by decide +kernel

/-! ## C70 -/

/-- **C70 fails in the code**: a close request that cannot be decoded is answered with an error, and then closes the
server's socket all the same: nobody is told, the server is still registered and not closed, and the next message ends
its loop. -/
theorem C70_negation : ∃ (es : List Ev) (m : Msg) (c : Bytes) (parts parts' : List Bytes), readOne heap parts = .ok (c, m) ∧ m.action = "close" ∧
    (∃ x, m.payload heap (srv.run es).1 .msgpack = .error x) ∧ (srv.run es).1.Serving ∧
    let s := (srv.run es).1.step (.recv heap parts)
    s.1.sockOpen = false ∧ s.1.closed = false ∧ s.1.registered = true ∧ countSends [66] s.2 = 0 ∧ [66] ∈ (acceptedBy (srv.run es).2).map (·.1) ∧
      (s.1.step (.recv heap parts')).1.dead = true :=
  ⟨exKnown, ⟨2, "close", "auto", "msgpack", [9]⟩, [65], [[65], [2], [12], [20], [30], [9]], [[66], [3], [14], [20], [30], []],
    rfl, rfl, ⟨_, rfl⟩, ⟨rfl, rfl, rfl⟩, rfl, rfl, rfl, by decide +kernel, by decide +kernel, by decide +kernel⟩

/-- **C70 (partial).** Only a close request closes anything: in every run, if the server's socket was closed or the
server marked closed, a message asking for `close` was read. Missing for C70: the request need not have been readable. -/
theorem C70_only_close_closes_partial {addr : String} {tys : List Ty} {self : Val} (es : List Ev)
    (h : ((Srv.init addr tys self).run es).1.sockOpen = false ∨ ((Srv.init addr tys self).run es).1.closed = true) :
    ∃ H parts, .recv H parts ∈ es ∧ AsksClose H parts := by
  suffices ∀ (es : List Ev) (s : Srv), s.sockOpen = true → s.closed = false → (∀ H parts, .recv H parts ∈ es → ¬ AsksClose H parts) →
      (s.run es).1.sockOpen = true ∧ (s.run es).1.closed = false by
    apply Classical.byContradiction
    intro hn
    have h3 := this es (Srv.init addr tys self) rfl rfl (fun H parts hm ha => hn ⟨H, parts, hm, ha⟩)
    rw [h3.1, h3.2] at h; simp at h
  intro es
  induction es with
  | nil => intro s h1 h2 _; exact ⟨h1, h2⟩
  | cons e es ih =>
    intro s h1 h2 hn
    have hstep : (s.step e).1.sockOpen = true ∧ (s.step e).1.closed = false := by
      have hfin : ∀ (H : Heap) (s : Srv) c k rt r, s.sockOpen = true → (s.finish H c k rt false r).1.sockOpen = true := by
        intro H s c k rt r h
        obtain ⟨t, b, d, h3, h4, _⟩ := finish_state H s c k rt false r
        rw [h3]; exact (h4 rfl).trans h
      cases e with
      | ret H r =>
        simp only [Srv.step]
        split
        · exact ⟨h1, h2⟩
        · exact ⟨hfin _ _ _ _ _ _ h1, by rw [(finish_reg ..).2]; exact h2⟩
      | mkProxy H v kw => exact ⟨h1, h2⟩
      | publish H n v => simp only [Srv.step]; split <;> exact ⟨h1, h2⟩
      | recv H parts =>
        simp only [Srv.step]
        split
        · exact ⟨h1, h2⟩
        split
        · exact ⟨h1, h2⟩
        split
        · exact ⟨h1, h2⟩
        · rename_i c m hr
          have hm : m.action ≠ "close" := fun ha => hn H parts (by simp) ⟨c, m, hr, ha⟩
          simp only
          have ha : ∀ opts, (Srv.action H { s with clients := s.clients.set c m.serType } c m.action opts).srv.sockOpen = true ∧
              (Srv.action H { s with clients := s.clients.set c m.serType } c m.action opts).srv.closed = false := by
            intro opts
            have hs := action_state H { s with clients := s.clients.set c m.serType } c m.action opts
            generalize Srv.action H { s with clients := s.clients.set c m.serType } c m.action opts = st at hs ⊢
            cases st with
            | finished s1 o r =>
              obtain ⟨⟨t, n, b1, b2, h9, h10, _⟩, _⟩ := hs
              simp only [Started.srv, h9]
              exact ⟨h1, (h10 hm).1.trans h2⟩
            | running s1 o task => obtain ⟨rfl, _⟩ := hs; exact ⟨h1, h2⟩
          rcases process_split H s c m with ⟨e, h, _⟩ | ⟨ser, cs, opts, _, _, _, ⟨s1, o, r, h3, h⟩ | ⟨s1, o, task, h3, h⟩⟩
          · rw [h, decide_eq_false hm]; exact ⟨hfin _ _ _ _ _ _ h1, by rw [(finish_reg ..).2]; exact h2⟩
          · have := ha opts; rw [h3] at this
            rw [h, decide_eq_false hm]; exact ⟨hfin _ _ _ _ _ _ this.1, by simp only [(finish_reg ..).2]; exact this.2⟩
          · have := ha opts; rw [h3] at this
            rw [h]; exact this
    exact ih _ hstep.1 hstep.2 (fun H parts hm => hn H parts (by simp [hm]))

example : (srv.run (exKnown ++ [msg 65 [2] 12 20 30 []])).1.closed = true := by decide +kernel

open Ex

/-! ## The theorems on these cases -/

theorem exObjIds_live : LiveRun heap.idOf (Srv.init "tcp://a:1" [] self) (exObjIds.take 2 ++ [msg 66 [1] 14 20 31 [1]]) :=
  ⟨rfl, Ex.liveHeap _, rfl, Ex.liveHeap _, rfl, Ex.liveHeap _, trivial⟩
theorem exObjIds_first : ((Srv.init "tcp://a:1" [] self).run (exObjIds.take 2)).1.refs.lookup 0 = .ok 7 := by decide +kernel
theorem exObjIds_then : ((Srv.init "tcp://a:1" [] self).run (exObjIds.take 2 ++ [msg 66 [1] 14 20 31 [1]])).1.refs.lookup 0 = .ok 7 := by decide +kernel
example : (7 : Obj) = 7 := C69_object_ids_never_reused exObjIds_live (oid := 0) exObjIds_first exObjIds_then
theorem exObjIds_live2 : LiveRun heap.idOf (Srv.init "tcp://a:1" [] self) exObjIds :=
  ⟨rfl, Ex.liveHeap _, rfl, Ex.liveHeap _, rfl, Ex.liveHeap _, rfl, Ex.liveHeap _, trivial⟩
theorem exObjIds_held : ((Srv.init "tcp://a:1" [] self).run exObjIds).1.refs.lookup 1 = .ok 7 := by decide +kernel
example (oid : Nat) (h : ((Srv.init "tcp://a:1" [] self).run exObjIds).1.refs.lookup oid = .ok 7) : oid = 1 :=
  C69_one_id_per_object exObjIds_live2 h exObjIds_held
example := C70_only_close_closes_partial (addr := "tcp://a:1") (tys := []) (self := self) (exKnown ++ [msg 65 [2] 12 20 30 []]) (.inr (by decide +kernel))

end Verif
