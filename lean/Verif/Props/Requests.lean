import Verif.Props.EndToEnd
import Verif.Props.ServerNames
import Verif.Proof.SystemClose
/-!
# C92, C93: what the client's own requests do, from end to end

`client[name] = v`, `client[name]`, `client.transfer(v)`, `client.delete(p)`: for each the future of the request tells what the server did, and the server did what was asked for.
-/
namespace Verif

/-- of the server, a report depends on address and types only -/
theorem reports_congr {L c k H R ser s s' t rt r f} (h1 : s.tys = s'.tys) (h2 : s.addr = s'.addr) (h : Reports L c k H R ser s t rt r f) : Reports L c k H R ser s' t rt r f := by
  have hE : s.sendEnv H = s'.sendEnv H := by simp only [Srv.sendEnv, h1, h2]
  cases h with
  | raised x a => exact .raised x a
  | value v rv a b => exact .value v rv (h1 ▸ a) (by rw [← h1, ← hE]; exact b)
  | proxy v p a b c d => exact .proxy v p (h1 ▸ a) (b.trans h2) c d
  | unserializable v x u a b => exact .unserializable v x u (h1 ▸ a) (h1 ▸ b)

theorem outcome_unique {s : Srv} {H : Heap} {parts c k rt r s1 o r' s1' o'} (h : Outcome s (.recv H parts) c k rt r s1 o) (h' : Outcome s (.recv H parts) c k rt r' s1' o') :
    r = r' ∧ s1 = s1' ∧ o = o' := by
  obtain ⟨a, st, b, ser, opts, h1, h2, h3, h4, h5, h6⟩ := h
  obtain ⟨a', st', b', ser', opts', h1', h2', h3', h4', h5', h6'⟩ := h'
  rw [h1] at h1'
  simp only [Except.ok.injEq, Prod.mk.injEq, Msg.mk.injEq, true_and] at h1'
  obtain ⟨rfl, rfl, rfl⟩ := h1'
  rw [h3] at h3'; cases h3'
  rw [h5] at h5'; cases h5'
  rw [h6] at h6'; cases h6'
  exact ⟨rfl, rfl, rfl⟩

/-- The process of a client: same libraries as the server's, default types to serialize, no server of its own at the address of the other one, and a table of references as it may be. -/
structure ClientProc (L : Lib) (addr : String) (E : SendEnv) (t : Refs) : Prop where
  lib : E.lib = L
  types : ∀ ty ∈ defaultTypes, ty ∈ E.tys
  server : E.server ≠ some addr
  refs : ∃ h, Reach E.idOf h t ∧ Alive E h

/-- The request was sent and has a future. -/
def SentAs (K : Codec) (S : Sys) (n : Bytes) (E : SendEnv) (t : Refs) (r : Request) (rt sy : String) (k : Nat) : Prop :=
  ((S.cli n).send K E t r.1 r.2 rt sy).2.2.2 = .ok (.future k) ∨ ((S.cli n).send K E t r.1 r.2 rt sy).2.2.2 = .ok (.wait k)

/-- The server reads the message of a request and finishes it in this step with result `r` in state `s1`; the future reports this. The message is the next event after `pre`. -/
structure Served (L : Lib) (srv : Srv) (es : List SEv) (n : Bytes) (k : Nat) (rt : String) (ser : Ser) (f : Fut) (pre : List Ev) (H1 : Heap) (parts : List Bytes)
    (r : Except Exc Val) (s1 : Srv) : Prop where
  outcome : Outcome (srv.run pre).1 (.recv H1 (n :: parts)) n k rt r s1 []
  reported : ∃ P junk, SEv.deliver n P junk ∈ es ∧ Reports L n k H1 P.recv ser (srv.run pre).1 (srv.run (pre ++ [.recv H1 (n :: parts)])).1.refs rt r f

/-- The actions that run no user code and do not close the server. -/
def plainActions : List String := ["get_obj", "delete", "get_item", "set_item"]

theorem plain_finishes {a : String} (ha : a ∈ plainActions) (H : Heap) (s : Srv) (c : Bytes) (opts : Val) : ∃ s1 r, Srv.action H s c a opts = .finished s1 [] r := by
  simp only [plainActions, List.mem_cons, List.not_mem_nil, or_false] at ha
  rcases ha with rfl | rfl | rfl | rfl
  · exact ⟨_, _, rfl⟩
  · exact ⟨_, _, rfl⟩
  · exact ⟨_, _, rfl⟩
  · simp only [Srv.action]
    split <;> exact ⟨_, _, rfl⟩

/-- A plain request whose future is answered was read by the server, with the options as the serializer carries them, and done in one step. -/
theorem plain_served {K : Codec} {L : Lib} {idOf : Obj → Nat} {addr : String} {tys : List Ty} {self : Val} {sers : Bytes → Ser}
    {es1 es2 : List SEv} {n : Bytes} {E : SendEnv} {t : Refs} {a rt sy : String} {d0 : List (Val × Val)}
    (W : World K L idOf (Srv.init addr tys self) sers (es1 ++ .request n E t a (some (.dict d0)) rt sy :: es2)) (hplain : a ∈ plainActions)
    (hE : ClientProc L addr E t)
    {k : Nat} (hsent : SentAs K ((Sys.init (Srv.init addr tys self) sers).run K es1) n E t (a, some (.dict d0)) rt sy k)
    {f : Fut} (hf : (((Sys.init (Srv.init addr tys self) sers).run K (es1 ++ .request n E t a (some (.dict d0)) rt sy :: es2)).cli n).fut k = some f)
    (ha : f.answered) :
    ∃ pre H1 w post t', (Sys.init (Srv.init addr tys self) sers).srvHist K (es1 ++ .request n E t a (some (.dict d0)) rt sy :: es2) =
        pre ++ .recv H1 (n :: Asked.parts K ⟨k, a, rt, sers n, some w⟩) :: post ∧
      ((sers n).Sendable (((Srv.init addr tys self).run pre).1.recvEnv H1) (.dict d0) →
        ∃ d, (sers n).Arrives L E.tys (ByProxy E (((Srv.init addr tys self).run pre).1.recvEnv H1) t') (.dict d0) (.dict d) ∧
          Asks H1 ((Srv.init addr tys self).run pre).1 (n :: Asked.parts K ⟨k, a, rt, sers n, some w⟩) n k a rt (sers n).name (.dict d) ∧
          ∃ r s1, Served L (Srv.init addr tys self) (es1 ++ .request n E t a (some (.dict d0)) rt sy :: es2) n k rt (sers n) f pre H1
            (Asked.parts K ⟨k, a, rt, sers n, some w⟩) r s1) := by
  obtain ⟨h, hreach, halive⟩ := hE.refs
  obtain ⟨q, hq, hid, huniq, H, r, s1, s2, P, junk, hex, hdel, hrep⟩ := C34_result W hf ha
  obtain ⟨t', w, hdump, hask⟩ := send_future_asked hsent
  have hcs : (((Sys.init (Srv.init addr tys self) sers).run K es1).cli n).ser = sers n := by
    rw [sys_run_cli]; exact (run_const K _ _).2.1
  rw [hcs] at hask hdump
  have hmem : (⟨k, a, rt, sers n, some w⟩ : Asked) ∈
      (Sys.init (Srv.init addr tys self) sers).asked K (es1 ++ .request n E t a (some (.dict d0)) rt sy :: es2) n := by
    rw [sys_asked_append, sys_asked_cons]
    have : ((Sys.init (Srv.init addr tys self) sers).run K es1).cliEvs n (.request n E t a (some (.dict d0)) rt sy) = [.send E t a (some (.dict d0)) rt sy] := by
      simp [Sys.cliEvs]
    rw [this, hask]; simp
  have hqe := huniq _ hmem rfl
  subst hqe
  have hread : ∀ H1, (Ev.recv H1 (n :: Asked.parts K ⟨k, a, rt, sers n, some w⟩)) ∈
      (Sys.init (Srv.init addr tys self) sers).srvHist K (es1 ++ .request n E t a (some (.dict d0)) rt sy :: es2) →
      Fits K H1 ∧ H1.lib = L := by
    intro H1 hin
    obtain ⟨se, hse, hheap⟩ := srvHist_heap hin
    exact ⟨W.fits se hse _ hheap, W.lib se hse _ hheap⟩
  have hsm : (sers n).Small w := W.small n E t a (.dict d0) rt sy w (by simp) (by rw [hdump])
  have hpay : ∀ (s : Srv) H1, Fits K H1 → ∃ b, readOne H1 (n :: Asked.parts K ⟨k, a, rt, sers n, some w⟩) = .ok (n, ⟨k, a, rt, (sers n).name, b⟩) ∧
      Msg.payload H1 s ⟨k, a, rt, (sers n).name, b⟩ (sers n) = (sers n).loads (s.recvEnv H1) w := by
    intro s H1 hfit
    refine ⟨_, readOne_parts hfit n _, ?_⟩
    have := hfit.tree (sers n) w (dumps_writable (by rw [hdump]) hsm)
    simp [Msg.payload, this.1, this.2]
  have hopts : ∀ pre H1, H1.lib = L → (sers n).Sendable (((Srv.init addr tys self).run pre).1.recvEnv H1) (.dict d0) →
      ∃ d, (sers n).loads (((Srv.init addr tys self).run pre).1.recvEnv H1) w = .ok (.dict d) ∧
        (sers n).Arrives L E.tys (ByProxy E (((Srv.init addr tys self).run pre).1.recvEnv H1) t') (.dict d0) (.dict d) := by
    intro pre H1 hH hs
    have hlink : Link L E (((Srv.init addr tys self).run pre).1.recvEnv H1) := by
      refine ⟨W.laws, hE.lib, hH, hE.types, ?_⟩
      intro a' u hu hs
      simp only [Srv.recvEnv, Option.some.injEq, Prod.mk.injEq] at hu
      rw [(run_const_srv pre (Srv.init addr tys self)).2] at hu
      rw [← hu.1] at hs
      exact hE.server hs
    obtain ⟨v', h1, h2⟩ := ser_transport hlink hreach halive hs hdump
    have : ∃ d, v' = .dict d := by
      revert h2
      cases sers n with
      | msgpack => intro h2; simp only [Ser.Arrives, Arrives] at h2; obtain ⟨d', h, _⟩ := h2; exact ⟨d', h⟩
      | json => intro h2; simp only [Ser.Arrives, JArrives] at h2; obtain ⟨d', h, _⟩ := h2; exact ⟨d', h⟩
    obtain ⟨d, rfl⟩ := this
    exact ⟨d, h1, h2⟩
  cases hex with
  | @atOnce pre post _ _ _ hhist hcomp =>
    have hin := hread H (by rw [hhist]; simp)
    refine ⟨pre, H, w, post, t', hhist, fun hs => ?_⟩
    obtain ⟨b, h3, h4⟩ := hpay ((Srv.init addr tys self).run pre).1 H hin.1
    obtain ⟨d, h1, h2⟩ := hopts pre H hin.2 hs
    rcases hcomp with ⟨out, hout⟩ | ⟨H', parts', m, x, ser, he, hserv, hrd, hk, hrt, hser, herr, _⟩
    · have hout' := hout
      obtain ⟨a', st, b', ser, opts, g1, hserv, g2, hu, g3, g4⟩ := hout'
      have hasks : Asks H ((Srv.init addr tys self).run pre).1 (n :: Asked.parts K ⟨k, a, rt, sers n, some w⟩) n k a rt (sers n).name (.dict d) :=
        ⟨hserv, hu, b, sers n, h3, serOf_name _, h4.trans h1⟩
      obtain ⟨s1', r', hfin⟩ := plain_finishes hplain H { ((Srv.init addr tys self).run pre).1 with clients := ((Srv.init addr tys self).run pre).1.clients.set n (sers n).name } n (.dict d)
      obtain ⟨rfl, rfl, rfl⟩ := outcome_unique hout (asks_outcome hasks hfin)
      have hs := completes_state (.inl ⟨_, hout⟩)
      exact ⟨d, h2, hasks, _, _, hout, P, junk, hdel, reports_congr hs.2.2 hs.2.1 hrep⟩
    · exfalso
      simp only [Ev.recv.injEq] at he
      obtain ⟨rfl, rfl⟩ := he
      rw [h3] at hrd
      simp only [Except.ok.injEq, Prod.mk.injEq, true_and] at hrd
      subst hrd
      simp only [serOf_name, Option.some.injEq] at hser
      subst hser
      rw [h4, h1] at herr
      simp at herr
  | @later pre mid post H1 _ r0 task hhist hbeg hkeep hend =>
    exfalso
    obtain ⟨a', st, b, ser, opts, o, g1, g2, g3, g4, g5⟩ := hbeg
    have hin := hread H1 (by rw [hhist]; simp)
    obtain ⟨b', h3, -⟩ := hpay ((Srv.init addr tys self).run pre).1 H1 hin.1
    rw [h3] at g1
    simp only [Except.ok.injEq, Prod.mk.injEq, Msg.mk.injEq, true_and] at g1
    obtain ⟨rfl, rfl, rfl⟩ := g1
    obtain ⟨s1', r', hfin⟩ := plain_finishes hplain H1 { ((Srv.init addr tys self).run pre).1 with clients := ((Srv.init addr tys self).run pre).1.clients.set n (sers n).name } n opts
    rw [hfin] at g5
    cases g5

/-! ## Options -/

theorem opts_sendable1 {ser : Ser} {R : RecvEnv} {a : String} {x : Val} (ha : a ≠ encodeKey) (hx : ser.Sendable R x) : ser.Sendable R (.dict [(.str a, x)]) := by
  cases ser with
  | msgpack =>
    simp only [Ser.Sendable, Sendable, SendableD, and_true] at hx ⊢
    exact ⟨⟨by simp [keyOk], by simp, by simp [lookupStr, ha]⟩, hx⟩
  | json =>
    simp only [Ser.Sendable, JSendable, JSendableD, and_true] at hx ⊢
    exact ⟨⟨by simp [jkey_str], by simp, by simp [jkey_str, ha]⟩, hx⟩

theorem opts_sendable2 {ser : Ser} {R : RecvEnv} {a b : String} {x y : Val} (hab : a ≠ b) (ha : a ≠ encodeKey) (hb : b ≠ encodeKey) (hx : ser.Sendable R x)
    (hy : ser.Sendable R y) : ser.Sendable R (.dict [(.str a, x), (.str b, y)]) := by
  cases ser with
  | msgpack =>
    simp only [Ser.Sendable, Sendable, SendableD, and_true] at hx hy ⊢
    exact ⟨⟨by simp [keyOk], by simp [keyEq, hab], by simp [lookupStr, ha, hb]⟩, hx, hy⟩
  | json =>
    simp only [Ser.Sendable, JSendable, JSendableD, and_true] at hx hy ⊢
    exact ⟨⟨by simp [jkey_str], by simp [jkey_str, hab], by simp [jkey_str, ha, hb]⟩, hx, hy⟩

theorem opts_arrive1 {ser : Ser} {L tys P} {a : String} {x : Val} {d} (h : ser.Arrives L tys P (.dict [(.str a, x)]) (.dict d)) :
    ∃ x', d = [(.str a, x')] ∧ ser.Arrives L tys P x x' := by
  cases ser with
  | msgpack =>
    simp only [Ser.Arrives, Arrives, ArrivesD, Val.dict.injEq] at h
    obtain ⟨d', rfl, x', _, rfl, hx, rfl⟩ := h
    exact ⟨x', rfl, hx⟩
  | json =>
    simp only [Ser.Arrives, JArrives, JArrivesD, Val.dict.injEq] at h
    obtain ⟨d', rfl, k1, x', _, rfl, hk, hx, rfl⟩ := h
    cases hk
    exact ⟨x', rfl, hx⟩

theorem opts_arrive2 {ser : Ser} {L tys P} {a b : String} {x y : Val} {d} (h : ser.Arrives L tys P (.dict [(.str a, x), (.str b, y)]) (.dict d)) :
    ∃ x' y', d = [(.str a, x'), (.str b, y')] ∧ ser.Arrives L tys P x x' ∧ ser.Arrives L tys P y y' := by
  cases ser with
  | msgpack =>
    simp only [Ser.Arrives, Arrives, ArrivesD, Val.dict.injEq] at h
    obtain ⟨d', rfl, x', _, rfl, hx, y', _, rfl, hy, rfl⟩ := h
    exact ⟨x', y', rfl, hx, hy⟩
  | json =>
    simp only [Ser.Arrives, JArrives, JArrivesD, Val.dict.injEq] at h
    obtain ⟨d', rfl, k1, x', _, rfl, hk, hx, k2, y', _, rfl, hk2, hy, rfl⟩ := h
    cases hk; cases hk2
    exact ⟨x', y', rfl, hx, hy⟩

theorem str_arrives {ser : Ser} {L tys P} {a : String} {v'} (h : ser.Arrives L tys P (.str a) v') : v' = .str a := by
  cases ser <;> simpa [Ser.Arrives, Arrives, JArrives] using h
theorem int_arrives {ser : Ser} {L tys P} {a : Int} {v'} (h : ser.Arrives L tys P (.int a) v') : v' = .int a := by
  cases ser <;> simpa [Ser.Arrives, Arrives, JArrives] using h
theorem str_sendable (ser : Ser) (R : RecvEnv) (a : String) : ser.Sendable R (.str a) := by cases ser <;> simp [Ser.Sendable, Sendable, JSendable]
theorem int_sendable (ser : Ser) (R : RecvEnv) (a : Int) : ser.Sendable R (.int a) := by cases ser <;> simp [Ser.Sendable, Sendable, JSendable]

/-! ## C92 -/

/-- Client `n` makes a request, in a process `E` with table `t`. -/
abbrev SEv.ask (n : Bytes) (E : SendEnv) (t : Refs) (r : Request) (rt sy : String) : SEv := .request n E t r.1 r.2 rt sy

/-- the names after a step that finishes a request -/
theorem outcome_ns {s : Srv} {e : Ev} {c k rt r s1 o} (h : Outcome s e c k rt r s1 o) : (s.step e).1.ns = s1.ns := by
  obtain ⟨cl, pre, h1, -⟩ := step_outcome h
  obtain ⟨t, b, d, h2, -⟩ := finish_state e.heap s1 c k rt cl r
  rw [h1, h2]

theorem run_snoc (s : Srv) (pre : List Ev) (e : Ev) : (s.run (pre ++ [e])).1 = ((s.run pre).1.step e).1 := by
  rw [run_append_state]; rfl

/-- **C92** (`client[name] = v`) In any run, if the future of this request is answered, the server read it, and if `v` is of the kinds that can be sent, from then on the name holds `v`
as the serializer carries it, all other names hold what they held, and the future reports None. -/
theorem C92_publish {K : Codec} {L : Lib} {idOf : Obj → Nat} {addr : String} {tys : List Ty} {self : Val} {sers : Bytes → Ser}
    {es1 es2 : List SEv} {n : Bytes} {E : SendEnv} {t : Refs} {rt sy name : String} {v : Val}
    (W : World K L idOf (Srv.init addr tys self) sers (es1 ++ .ask n E t (setItemReq (.str name) v) rt sy :: es2)) (hE : ClientProc L addr E t)
    {k : Nat} (hsent : SentAs K ((Sys.init (Srv.init addr tys self) sers).run K es1) n E t (setItemReq (.str name) v) rt sy k)
    {f : Fut} (hf : (((Sys.init (Srv.init addr tys self) sers).run K (es1 ++ .ask n E t (setItemReq (.str name) v) rt sy :: es2)).cli n).fut k = some f)
    (ha : f.answered) :
    ∃ pre H1 parts post t', (Sys.init (Srv.init addr tys self) sers).srvHist K (es1 ++ .ask n E t (setItemReq (.str name) v) rt sy :: es2) =
        pre ++ .recv H1 (n :: parts) :: post ∧
      let s0 := ((Srv.init addr tys self).run pre).1
      let s2 := ((Srv.init addr tys self).run (pre ++ [.recv H1 (n :: parts)])).1
      ((sers n).Sendable (s0.recvEnv H1) v →
        ∃ v', (sers n).Arrives L E.tys (ByProxy E (s0.recvEnv H1) t') v v' ∧ s2.ns.get? (.str name) = some v' ∧
          (∀ key, key ≠ .str name → s2.ns.get? key = s0.ns.get? key) ∧
          ∃ P junk, SEv.deliver n P junk ∈ es1 ++ .ask n E t (setItemReq (.str name) v) rt sy :: es2 ∧ Reports L n k H1 P.recv (sers n) s0 s2.refs rt (.ok .none) f) := by
  obtain ⟨pre, H1, w, post, t', h1, h2⟩ := plain_served (a := "set_item") (d0 := [(.str "name", .str name), (.str "obj", v)]) W (by decide) hE hsent hf ha
  refine ⟨pre, H1, _, post, t', h1, fun hv => ?_⟩
  obtain ⟨d, h3, h4, r, s1, h5, P, junk, h6, h7⟩ := h2 (opts_sendable2 (by decide) (by decide) (by decide) (str_sendable ..) hv)
  obtain ⟨x', v', rfl, hx, hv'⟩ := opts_arrive2 h3
  cases str_arrives hx
  obtain ⟨rfl, rfl, -⟩ := outcome_unique h5 (C71_set_item h4 (n := .str name) (v := v') (key := .str name) (by simp [lookupStr]) (by simp [lookupStr]) rfl)
  have hns := outcome_ns h5
  rw [← run_snoc] at hns
  refine ⟨v', hv', by rw [hns]; simp [Dict.get?_set], ?_, P, junk, h6, h7⟩
  intro key hk
  rw [hns]
  simp [Dict.get?_set, Ne.symm hk]

/-- **C92** (`client[name]`) In any run, if the future of this request is answered, it reports what the name held when the server read the request, KeyError if nothing. -/
theorem C92_lookup {K : Codec} {L : Lib} {idOf : Obj → Nat} {addr : String} {tys : List Ty} {self : Val} {sers : Bytes → Ser}
    {es1 es2 : List SEv} {n : Bytes} {E : SendEnv} {t : Refs} {rt sy name : String}
    (W : World K L idOf (Srv.init addr tys self) sers (es1 ++ .ask n E t (getItemReq (.str name)) rt sy :: es2)) (hE : ClientProc L addr E t)
    {k : Nat} (hsent : SentAs K ((Sys.init (Srv.init addr tys self) sers).run K es1) n E t (getItemReq (.str name)) rt sy k)
    {f : Fut} (hf : (((Sys.init (Srv.init addr tys self) sers).run K (es1 ++ .ask n E t (getItemReq (.str name)) rt sy :: es2)).cli n).fut k = some f)
    (ha : f.answered) :
    ∃ pre H1 w post, (Sys.init (Srv.init addr tys self) sers).srvHist K (es1 ++ .ask n E t (getItemReq (.str name)) rt sy :: es2) =
        pre ++ .recv H1 (n :: Asked.parts K ⟨k, "get_item", rt, sers n, some w⟩) :: post ∧
      ∃ P junk, SEv.deliver n P junk ∈ es1 ++ .ask n E t (getItemReq (.str name)) rt sy :: es2 ∧
        Reports L n k H1 P.recv (sers n) ((Srv.init addr tys self).run pre).1 ((Srv.init addr tys self).run (pre ++ [.recv H1 (n :: Asked.parts K ⟨k, "get_item", rt, sers n, some w⟩)])).1.refs rt
          (match ((Srv.init addr tys self).run pre).1.ns.get? (.str name) with
            | some v => .ok v
            | none => .error .keyError) f := by
  obtain ⟨pre, H1, w, post, t', h1, h2⟩ := plain_served (a := "get_item") (d0 := [(.str "name", .str name)]) W (by decide) hE hsent hf ha
  refine ⟨pre, H1, w, post, h1, ?_⟩
  obtain ⟨d, h3, h4, r, s1, h5, P, junk, h6, h7⟩ := h2 (opts_sendable1 (by decide) (str_sendable ..))
  obtain ⟨x', rfl, hx⟩ := opts_arrive1 h3
  cases str_arrives hx
  obtain ⟨hserv, hu, b, ser, g1, g2, g3⟩ := h4
  obtain ⟨rfl, rfl, -⟩ := outcome_unique h5 (get_item_outcome (n := .str name) (key := .str name) hserv g1 g2 hu g3 (by simp [optGet, lookupStr]) rfl)
  exact ⟨P, junk, h6, h7⟩

/-- **C92** (`client.transfer(v)`, `client.get_obj(v)`) In any run, if the future of this request is answered and `v` is of the kinds that can be sent, it reports `v` as it arrived at the
server: a proxy of the server as the object it stands for. -/
theorem C92_transfer {K : Codec} {L : Lib} {idOf : Obj → Nat} {addr : String} {tys : List Ty} {self : Val} {sers : Bytes → Ser}
    {es1 es2 : List SEv} {n : Bytes} {E : SendEnv} {t : Refs} {rt sy : String} {v : Val}
    (W : World K L idOf (Srv.init addr tys self) sers (es1 ++ .ask n E t (getObjReq v) rt sy :: es2)) (hE : ClientProc L addr E t)
    {k : Nat} (hsent : SentAs K ((Sys.init (Srv.init addr tys self) sers).run K es1) n E t (getObjReq v) rt sy k)
    {f : Fut} (hf : (((Sys.init (Srv.init addr tys self) sers).run K (es1 ++ .ask n E t (getObjReq v) rt sy :: es2)).cli n).fut k = some f)
    (ha : f.answered) :
    ∃ pre H1 parts post t', (Sys.init (Srv.init addr tys self) sers).srvHist K (es1 ++ .ask n E t (getObjReq v) rt sy :: es2) =
        pre ++ .recv H1 (n :: parts) :: post ∧
      let s0 := ((Srv.init addr tys self).run pre).1
      ((sers n).Sendable (s0.recvEnv H1) v →
        ∃ v', (sers n).Arrives L E.tys (ByProxy E (s0.recvEnv H1) t') v v' ∧
          ∃ P junk, SEv.deliver n P junk ∈ es1 ++ .ask n E t (getObjReq v) rt sy :: es2 ∧
            Reports L n k H1 P.recv (sers n) ((Srv.init addr tys self).run pre).1 ((Srv.init addr tys self).run (pre ++ [.recv H1 (n :: parts)])).1.refs rt (.ok v') f) := by
  obtain ⟨pre, H1, w, post, t', h1, h2⟩ := plain_served (a := "get_obj") (d0 := [(.str "obj", v)]) W (by decide) hE hsent hf ha
  refine ⟨pre, H1, _, post, t', h1, fun hv => ?_⟩
  obtain ⟨d, h3, h4, r, s1, h5, P, junk, h6, h7⟩ := h2 (opts_sendable1 (by decide) hv)
  obtain ⟨v', rfl, hv'⟩ := opts_arrive1 h3
  obtain ⟨rfl, rfl, -⟩ := outcome_unique h5 (C71_get_obj h4 (f := v') (by simp [lookupStr]))
  exact ⟨v', hv', P, junk, h6, h7⟩

/-! ### Deleting -/

/-- The table holds reference `rid` to object `oid`. -/
def Refs.Held (t : Refs) (oid rid : Nat) : Prop := ∃ o rs, t.refs.get? oid = some (o, rs) ∧ rid ∈ rs

/-- Handing out proxies keeps all references. -/
theorem getProxy_keeps (idOf : Obj → Nat) (t : Refs) (o : Obj) (kw : List String) {oid rid : Nat} (h : t.Held oid rid) : (t.getProxy idOf o kw).1.Held oid rid := by
  have hid : ∀ t : Refs, (t.getObjectId idOf o).1.refs = t.refs := by
    intro t; unfold Refs.getObjectId; split <;> rfl
  unfold Refs.getProxy
  simp only
  have h1 := hid { t with nextRid := t.nextRid + 1 }
  generalize Refs.getObjectId idOf { t with nextRid := t.nextRid + 1 } o = y at h1 ⊢
  obtain ⟨t1, oid1⟩ := y
  simp only at h1 ⊢
  split
  · obtain ⟨ob, rs, h2, h3⟩ := h
    by_cases he : oid1 = oid
    · subst he
      refine ⟨ob, setAdd rs t.nextRid, by simp [h1, h2], mem_setAdd.2 (.inl h3)⟩
    · exact ⟨ob, rs, by simp [Dict.get?_set, he, h1, h2], h3⟩
  · exact (by obtain ⟨ob, rs, h2, h3⟩ := h; exact ⟨ob, rs, by rw [h1]; exact h2, h3⟩)

/-- Once a reference number is used up and not held for an object, it never is again. -/
def Refs.Gone (t : Refs) (oid rid : Nat) : Prop := rid < t.nextRid ∧ ¬ t.Held oid rid

theorem step_gone (idOf : Obj → Nat) {t : Refs} (op : RefOp) {oid rid : Nat} (h : t.Gone oid rid) : (t.step idOf op).1.Gone oid rid := by
  obtain ⟨hlt, hn⟩ := h
  cases op with
  | get o kw =>
    rw [step_get_fst]
    have hid : ∀ t : Refs, (t.getObjectId idOf o).1.refs = t.refs ∧ (t.getObjectId idOf o).1.nextRid = t.nextRid := by
      intro t; unfold Refs.getObjectId; split <;> exact ⟨rfl, rfl⟩
    unfold Refs.getProxy
    simp only
    have h1 := hid { t with nextRid := t.nextRid + 1 }
    generalize Refs.getObjectId idOf { t with nextRid := t.nextRid + 1 } o = y at h1 ⊢
    obtain ⟨t1, oid1⟩ := y
    simp only at h1 ⊢
    obtain ⟨h1, h2⟩ := h1
    split
    · refine ⟨by show rid < t1.nextRid; omega, ?_⟩
      rintro ⟨ob, rs, h3, h4⟩
      by_cases he : oid1 = oid
      · subst he
        simp only [Dict.get?_set, if_true, Option.some.injEq, Prod.mk.injEq] at h3
        obtain ⟨-, rfl⟩ := h3
        rcases mem_setAdd.1 h4 with h4 | h4
        · rw [h1] at h4
          cases hg : t.refs.get? oid1 with
          | none => simp [hg] at h4
          | some x => exact hn ⟨x.1, x.2, hg, by simpa [hg] using h4⟩
        · omega
      · simp only [Dict.get?_set, he, if_false, h1] at h3
        exact hn ⟨ob, rs, h3, h4⟩
    · refine ⟨by show rid < t1.nextRid; omega, ?_⟩
      rintro ⟨ob, rs, h3, h4⟩
      exact hn ⟨ob, rs, by rw [← h1]; exact h3, h4⟩
  | delete o r =>
    rw [step_delete_fst]
    unfold Refs.delete
    split
    · exact ⟨hlt, hn⟩
    · rename_i ob s hg
      split
      · simp only
        split
        · refine ⟨hlt, ?_⟩
          rintro ⟨ob', rs, h3, h4⟩
          by_cases he : o = oid
          · subst he; simp [Dict.get?_erase] at h3
          · simp only [Dict.get?_erase, Dict.get?_set, he, if_false] at h3
            exact hn ⟨ob', rs, h3, h4⟩
        · refine ⟨hlt, ?_⟩
          rintro ⟨ob', rs, h3, h4⟩
          by_cases he : o = oid
          · subst he
            simp only [Dict.get?_set, if_true, Option.some.injEq, Prod.mk.injEq] at h3
            obtain ⟨-, rfl⟩ := h3
            exact hn ⟨ob, s, hg, List.mem_of_mem_erase h4⟩
          · simp only [Dict.get?_set, he, if_false] at h3
            exact hn ⟨ob', rs, h3, h4⟩
      · exact ⟨hlt, hn⟩

theorem path_gone {idOf : Obj → Nat} {ident : Val → Obj} {t t' : Refs} (hp : Path idOf ident t t') {oid rid : Nat} (h : t.Gone oid rid) : t'.Gone oid rid := by
  obtain ⟨ops, -, rfl⟩ := hp
  induction ops generalizing t with
  | nil => exact h
  | cons op ops ih => exact ih (step_gone idOf op h)

theorem path_nextRid {idOf : Obj → Nat} {ident : Val → Obj} {t t' : Refs} (hp : Path idOf ident t t') : t.nextRid ≤ t'.nextRid := by
  obtain ⟨ops, -, rfl⟩ := hp
  induction ops generalizing t with
  | nil => exact Nat.le_refl _
  | cons op ops ih =>
    refine Nat.le_trans ?_ (ih (t := (t.step idOf op).1))
    cases op with
    | get o kw =>
      rw [step_get_fst]
      have hid : ∀ t : Refs, (t.getObjectId idOf o).1.nextRid = t.nextRid := by
        intro t; unfold Refs.getObjectId; split <;> rfl
      have := hid { t with nextRid := t.nextRid + 1 }
      unfold Refs.getProxy
      simp only
      split <;> (simp only [this]; omega)
    | delete o r =>
      rw [step_delete_fst]
      unfold Refs.delete
      split
      · exact Nat.le_refl _
      · split
        · simp only
          split <;> exact Nat.le_refl _
        · exact Nat.le_refl _

theorem run_gone {oid rid : Nat} : ∀ (es : List Ev) {s : Srv}, s.refs.Gone oid rid → (s.run es).1.refs.Gone oid rid
  | [], _, h => h
  | e :: es, _, h => run_gone es (path_gone (step_path _ e) h)

/-- **C92** (`client.delete(p)`) In any run, if the future of this request is answered: if the server held the reference of `p` when it read the request, the future reports None, the
server never holds this reference again, and it still holds all others. If it did not hold it, the future reports KeyError, and the server holds what it held. -/
theorem C92_delete {K : Codec} {L : Lib} {idOf : Obj → Nat} {addr : String} {tys : List Ty} {self : Val} {sers : Bytes → Ser}
    {es1 es2 : List SEv} {n : Bytes} {E : SendEnv} {t : Refs} {rt sy : String} {p : Proxy}
    (W : World K L idOf (Srv.init addr tys self) sers (es1 ++ .ask n E t (deleteReq p) rt sy :: es2)) (hE : ClientProc L addr E t)
    {k : Nat} (hsent : SentAs K ((Sys.init (Srv.init addr tys self) sers).run K es1) n E t (deleteReq p) rt sy k)
    {f : Fut} (hf : (((Sys.init (Srv.init addr tys self) sers).run K (es1 ++ .ask n E t (deleteReq p) rt sy :: es2)).cli n).fut k = some f)
    (ha : f.answered) :
    ∃ pre H1 parts post, (Sys.init (Srv.init addr tys self) sers).srvHist K (es1 ++ .ask n E t (deleteReq p) rt sy :: es2) =
        pre ++ .recv H1 (n :: parts) :: post ∧
      let s0 := ((Srv.init addr tys self).run pre).1
      let s2 := ((Srv.init addr tys self).run (pre ++ [.recv H1 (n :: parts)])).1
      (∀ oid rid, s0.refs.Held oid rid → ¬ (oid = p.oid ∧ rid = p.rid) → s2.refs.Held oid rid) ∧
      ∃ P junk, SEv.deliver n P junk ∈ es1 ++ .ask n E t (deleteReq p) rt sy :: es2 ∧
        ((s0.refs.Held p.oid p.rid ∧ Reports L n k H1 P.recv (sers n) s0 s2.refs rt (.ok .none) f ∧
            ∀ x y, post = x ++ y → ¬ ((Srv.init addr tys self).run (pre ++ .recv H1 (n :: parts) :: x)).1.refs.Held p.oid p.rid) ∨
         (¬ s0.refs.Held p.oid p.rid ∧ Reports L n k H1 P.recv (sers n) s0 s2.refs rt (.error .keyError) f)) := by
  obtain ⟨pre, H1, w, post, t', h1, h2⟩ := plain_served (a := "delete") (d0 := [(.str "obj_id", .int p.oid), (.str "ref_id", .int p.rid)]) W (by decide) hE hsent hf ha
  refine ⟨pre, H1, _, post, h1, ?_⟩
  intro s0 s2
  obtain ⟨d, h3, h4, r, s1, h5, P, junk, h6, h7⟩ := h2 (opts_sendable2 (by decide) (by decide) (by decide) (int_sendable ..) (int_sendable ..))
  obtain ⟨x', y', rfl, hx, hy⟩ := opts_arrive2 h3
  cases int_arrives hx
  cases int_arrives hy
  obtain ⟨g1, g2⟩ := C71_delete h4 (oid := p.oid) (rid := p.rid) (by simp [lookupStr]) (by simp [lookupStr])
  -- replying hands out references only
  have hgrow : ∀ oid rid, s1.refs.Held oid rid → s2.refs.Held oid rid := by
    intro oid rid hh
    obtain ⟨cl, pr, h8, -⟩ := step_outcome h5
    have := finish_grows (H := H1) (Rel := fun a b => ∀ oid rid, a.Held oid rid → b.Held oid rid)
      (fun s => ⟨fun _ _ _ h => h, fun _ _ _ hab hbc _ _ h => hbc _ _ (hab _ _ h), fun t v _ _ h => getProxy_keeps _ t _ _ h⟩) s1 n k rt cl r oid rid hh
    show ((Srv.init addr tys self).run (pre ++ [_])).1.refs.Held oid rid
    rw [run_snoc, h8]
    exact this
  by_cases hheld : s0.refs.Held p.oid p.rid
  · obtain ⟨o, rs, hg, hm⟩ := hheld
    obtain ⟨t1, k1, k2, k3⟩ := g1 o rs hg hm
    obtain ⟨rfl, rfl, -⟩ := outcome_unique h5 k1
    refine ⟨?_, P, junk, h6, .inl ⟨⟨o, rs, hg, hm⟩, h7, ?_⟩⟩
    · rintro oid rid ⟨o', rs', hg', hm'⟩ hne
      refine hgrow _ _ ?_
      by_cases he : oid = p.oid
      · subst he
        rw [hg] at hg'; cases hg'
        have hr : rid ≠ p.rid := fun h => hne ⟨rfl, h⟩
        have hme : rid ∈ rs.erase p.rid := (List.mem_erase_of_ne hr).2 hm'
        refine ⟨o, rs.erase p.rid, ?_, hme⟩
        show t1.refs.get? p.oid = _
        rw [k3, if_neg (List.ne_nil_of_mem hme)]
      · exact ⟨o', rs', by show t1.refs.get? oid = _; rw [k2 oid he]; exact hg', hm'⟩
    · intro x y hxy
      have hl : LiveRun idOf (Srv.init addr tys self) (pre ++ .recv H1 (n :: Asked.parts K ⟨k, "delete", rt, sers n, some w⟩) :: post) := h1 ▸ W.live
      obtain ⟨l1, -⟩ := liveRun_append _ _ _ hl
      obtain ⟨h', hr⟩ := run_reach _ _ [] .init l1
      have hI := hr.inv
      have hout : (⟨p.oid, p.rid, o⟩ : Handle) ∈ outstanding ([] ++ h') := (hI.out _).2 ⟨rs, hg, hm⟩
      have hlt := (hI.handed _ (hI.sub _ hout)).1
      have hnd := (hI.entry _ _ _ hg).2.1
      have hgone1 : t1.Gone p.oid p.rid := by
        refine ⟨?_, ?_⟩
        · exact Nat.lt_of_lt_of_le hlt (path_nextRid (completes_state (.inl ⟨_, h5⟩)).1)
        · rintro ⟨o', rs', q1, q2⟩
          rw [k3] at q1
          split at q1
          · cases q1
          · cases q1
            exact (List.Nodup.mem_erase_iff hnd).1 q2 |>.1 rfl
      obtain ⟨cl, pr, h8, -⟩ := step_outcome h5
      have hgone2 : s2.refs.Gone p.oid p.rid := by
        show ((Srv.init addr tys self).run (pre ++ [_])).1.refs.Gone _ _
        rw [run_snoc, h8]
        exact path_gone (finish_path ..) hgone1
      rw [show pre ++ .recv H1 (n :: Asked.parts K ⟨k, "delete", rt, sers n, some w⟩) :: x = (pre ++ [.recv H1 (n :: Asked.parts K ⟨k, "delete", rt, sers n, some w⟩)]) ++ x by simp, run_append_state]
      exact (run_gone x hgone2).2
  · obtain ⟨rfl, rfl, -⟩ := outcome_unique h5 (g2 fun o rs hg hm => hheld ⟨o, rs, hg, hm⟩)
    exact ⟨fun oid rid hh _ => hgrow _ _ hh, P, junk, h6, .inr ⟨hheld, h7⟩⟩

/-! ## C93: a value published by one client, read by another -/

theorem lastOf_none {κ ν : Type} [DecidableEq κ] {ws : List (κ × ν)} {k : κ} (h : ∀ w ∈ ws, w.1 ≠ k) : lastOf ws k = none := by
  simp only [lastOf, Option.map_eq_none_iff, List.find?_eq_none, List.mem_reverse, decide_eq_true_eq]
  exact h

/-- a message the server has read was sent before -/
theorem not_read_before {K : Codec} {L : Lib} {idOf : Obj → Nat} {addr : String} {tys : List Ty} {self : Val} {sers : Bytes → Ser} {es1 es2 : List SEv}
    (W : World K L idOf (Srv.init addr tys self) sers (es1 ++ es2)) {n : Bytes} {k : Nat} {q : Asked} (hid : q.id = k)
    (hnew : (((Sys.init (Srv.init addr tys self) sers).run K es1).cli n).nextId ≤ k) {H : Heap}
    (h : Ev.recv H (n :: q.parts K) ∈ (Sys.init (Srv.init addr tys self) sers).srvHist K es1) : False := by
  have W1 := W.prefix
  obtain ⟨n', q', h1, h2⟩ := recv_asked (A := fun _ => []) W1.fits (fun _ => rfl) h
  simp only [List.not_mem_nil, false_or, List.cons.injEq] at h1 h2
  obtain ⟨rfl, h1⟩ := h1
  obtain ⟨se, hse, hheap⟩ := srvHist_heap h
  have hfit : Fits K H := W1.fits se hse _ hheap
  have e1 := readOne_parts hfit n q
  have e2 := readOne_parts hfit n q'
  rw [h1] at e1
  rw [e1] at e2
  simp only [Except.ok.injEq, Prod.mk.injEq, Msg.mk.injEq, true_and] at e2
  have := (asked_ids K _ _).1 q' h2
  rw [← sys_run_cli] at this
  omega

/-- the id of a sent request is the next one -/
theorem sent_id {K : Codec} {S : Sys} {n E t r rt sy k} (h : SentAs K S n E t r rt sy k) : k = (S.cli n).nextId := by
  obtain ⟨a, o⟩ := r
  simp only [SentAs, Cli.send] at h
  by_cases hd : (S.cli n).disconnected
  · simp [hd] at h
  simp only [hd, Bool.false_eq_true, if_false] at h
  repeat' split at h
  all_goals simp_all
  all_goals omega

/-- **C93** In any run: client `n` publishes `v` under a name and its future is answered; after that, client `m` (the same or another) asks for the name and its future is answered. If `v` is of
the kinds that can be sent and in between the server published nothing else under the name, `m` gets `v`: as the server received it, and as the serializer of `m` carries that (or a proxy to
that very object). -/
theorem C93_read_back {K : Codec} {L : Lib} {idOf : Obj → Nat} {addr : String} {tys : List Ty} {self : Val} {sers : Bytes → Ser}
    {es1 es2 es3 : List SEv} {n m : Bytes} {E E' : SendEnv} {t u : Refs} {rt sy rt' sy' name : String} {v : Val}
    (W : World K L idOf (Srv.init addr tys self) sers
      ((es1 ++ .ask n E t (setItemReq (.str name) v) rt sy :: es2) ++ .ask m E' u (getItemReq (.str name)) rt' sy' :: es3))
    (hE : ClientProc L addr E t) (hE' : ClientProc L addr E' u)
    {k j : Nat} (hsent : SentAs K ((Sys.init (Srv.init addr tys self) sers).run K es1) n E t (setItemReq (.str name) v) rt sy k)
    (hsent' : SentAs K ((Sys.init (Srv.init addr tys self) sers).run K (es1 ++ .ask n E t (setItemReq (.str name) v) rt sy :: es2)) m E' u (getItemReq (.str name)) rt' sy' j)
    {f g : Fut} (hf : (((Sys.init (Srv.init addr tys self) sers).run K (es1 ++ .ask n E t (setItemReq (.str name) v) rt sy :: es2)).cli n).fut k = some f) (ha : f.answered)
    (hg : (((Sys.init (Srv.init addr tys self) sers).run K
      ((es1 ++ .ask n E t (setItemReq (.str name) v) rt sy :: es2) ++ .ask m E' u (getItemReq (.str name)) rt' sy' :: es3)).cli m).fut j = some g) (hga : g.answered) :
    ∃ pre H1 parts mid H2 parts' post t',
      (Sys.init (Srv.init addr tys self) sers).srvHist K ((es1 ++ .ask n E t (setItemReq (.str name) v) rt sy :: es2) ++ .ask m E' u (getItemReq (.str name)) rt' sy' :: es3) =
        pre ++ .recv H1 (n :: parts) :: (mid ++ .recv H2 (m :: parts') :: post) ∧
      let s0 := ((Srv.init addr tys self).run pre).1
      let s1 := ((Srv.init addr tys self).run (pre ++ [.recv H1 (n :: parts)])).1
      ((sers n).Sendable (s0.recvEnv H1) v → (∀ w ∈ s1.writes mid, w.1 ≠ .str name) →
        ∃ v', (sers n).Arrives L E.tys (ByProxy E (s0.recvEnv H1) t') v v' ∧ 
          ∃ P junk, SEv.deliver m P junk ∈ (es1 ++ .ask n E t (setItemReq (.str name) v) rt sy :: es2) ++ .ask m E' u (getItemReq (.str name)) rt' sy' :: es3 ∧
            let s2 := ((Srv.init addr tys self).run (pre ++ .recv H1 (n :: parts) :: (mid ++ [.recv H2 (m :: parts')]))).1
            Reports L m j H2 P.recv (sers m) s2 s2.refs rt' (.ok v') g) := by
  obtain ⟨pre, H1, parts, post0, t', h1, h2⟩ := C92_publish W.prefix hE hsent hf ha
  obtain ⟨preB, H2, w, postB, h3, P, junk, hdel, h4⟩ := C92_lookup W hE' hsent' hg hga
  have h5 := srvHist_append K (es1 ++ .ask n E t (setItemReq (.str name) v) rt sy :: es2) (.ask m E' u (getItemReq (.str name)) rt' sy' :: es3) (Sys.init (Srv.init addr tys self) sers)
  -- the second message is read after the first
  have hsplit : ∃ x, preB = (pre ++ .recv H1 (n :: parts) :: post0) ++ x := by
    rw [h1, h3] at h5
    rcases List.append_eq_append_iff.1 h5 with ⟨x, e1, e2⟩ | ⟨x, e1, e2⟩
    · cases x with
      | nil => exact ⟨[], by simpa using e1.symm⟩
      | cons y x =>
        exfalso
        simp only [List.cons_append, List.cons.injEq] at e2
        obtain ⟨rfl, -⟩ := e2
        refine not_read_before W (q := ⟨j, "get_item", rt', sers m, some w⟩) rfl (Nat.le_of_eq (sent_id hsent').symm) (H := H2) ?_
        rw [h1, e1]
        simp
    · exact ⟨x, e1⟩
  obtain ⟨x, rfl⟩ := hsplit
  refine ⟨pre, H1, parts, post0 ++ x, H2, Asked.parts K ⟨j, "get_item", rt', sers m, some w⟩, postB, t', by rw [h3]; simp, ?_⟩
  intro s0 s1 hv hw
  obtain ⟨v', h6, h7, -, -⟩ := h2 hv
  have hlast : ((Srv.init addr tys self).run (pre ++ .recv H1 (n :: parts) :: post0 ++ x)).1.ns.get? (.str name) = some v' := by
    rw [show pre ++ .recv H1 (n :: parts) :: post0 ++ x = (pre ++ [.recv H1 (n :: parts)]) ++ (post0 ++ x) by simp, run_append_state, run_ns, lastOf_none hw]
    exact h7
  rw [hlast] at h4
  refine ⟨v', h6, P, junk, hdel, ?_⟩
  intro s2
  have hc := run_const_srv (pre ++ .recv H1 (n :: parts) :: post0 ++ x) (Srv.init addr tys self)
  have hc2 := run_const_srv (pre ++ .recv H1 (n :: parts) :: (post0 ++ x ++ [.recv H2 (m :: Asked.parts K ⟨j, "get_item", rt', sers m, some w⟩)])) (Srv.init addr tys self)
  have he : pre ++ .recv H1 (n :: parts) :: post0 ++ x ++ [.recv H2 (m :: Asked.parts K ⟨j, "get_item", rt', sers m, some w⟩)] =
      pre ++ .recv H1 (n :: parts) :: (post0 ++ x ++ [.recv H2 (m :: Asked.parts K ⟨j, "get_item", rt', sers m, some w⟩)]) := by simp
  rw [he] at h4
  exact reports_congr (hc.1.trans hc2.1.symm) (hc.2.trans hc2.2.symm) h4

namespace Ex

/-- A client process of the examples. -/
theorem cproc : ClientProc lib "tcp://a:1" csend Refs.init := ⟨rfl, fun _ h => h, by simp [csend], [], .init, ⟨fun _ _ _ => rfl, by simp [outstanding]⟩⟩

/-- The future is answered. -/
def isAnswered (K : Codec) (es : List SEv) (n : Bytes) (k : Nat) : Bool :=
  match ((sys.run K es).cli n).fut k with
  | some (.value _) | some (.remote _ _) => true
  | _ => false
theorem isAnswered_spec {K es n k} (h : isAnswered K es n k = true) : ∃ f, ((sys.run K es).cli n).fut k = some f ∧ f.answered := by
  unfold isAnswered at h
  split at h
  · rename_i v hv; exact ⟨_, hv, by simp [Fut.answered]⟩
  · rename_i v w hv; exact ⟨_, hv, by simp [Fut.answered]⟩
  · cases h

/-- Client A publishes a list, with another client's request in between; then client B asks for it. -/
def pub1 : List SEv := [req nB (getItemReq (.str "x")) "auto" "sync"]
def pub2 : List SEv := [.serve nB heap2, .serve nA heap2, rd nB, rd nA]
def pub3 : List SEv := [req nA (setItemReq (.str "z") (.int 3)) "auto" "off", .serve nA heap2, .serve nB heap2, rd nB]
def pubA : SEv := .ask nA csend Refs.init (setItemReq (.str "x") (.list [.int 7])) "auto" "sync"
def pubB : SEv := .ask nB csend Refs.init (getItemReq (.str "x")) "auto" "sync"

theorem pub_world : World codec2 lib heap2.idOf srv sers2 ((pub1 ++ pubA :: pub2) ++ pubB :: pub3) :=
  world2 (by simp [pub1, pub2, pub3, pubA, pubB, req, rd, SEv.heap?]) (by
    simp only [pub1, pub2, pub3, pubA, pubB, req, rd, List.cons_append, List.nil_append, List.mem_cons, List.not_mem_nil, reduceCtorEq, false_or, or_false, SEv.deliver.injEq]
    rintro n P j (h | h | h) <;> exact h.2.1)
theorem pub_sentA : SentAs codec2 (sys.run codec2 pub1) nA csend Refs.init (setItemReq (.str "x") (.list [.int 7])) "auto" "sync" 0 := .inr (by decide +kernel)
theorem pub_sentB : SentAs codec2 (sys.run codec2 (pub1 ++ pubA :: pub2)) nB csend Refs.init (getItemReq (.str "x")) "auto" "sync" 1 := .inr (by decide +kernel)
theorem pub_ansA : isAnswered codec2 (pub1 ++ pubA :: pub2) nA 0 = true := by decide +kernel
theorem pub_ansB : isAnswered codec2 ((pub1 ++ pubA :: pub2) ++ pubB :: pub3) nB 1 = true := by decide +kernel

/-- C92, C93: the hypotheses can be met together. -/
example : ∃ f g, (((sys.run codec2 (pub1 ++ pubA :: pub2)).cli nA).fut 0 = some f ∧ f.answered) ∧ (((sys.run codec2 ((pub1 ++ pubA :: pub2) ++ pubB :: pub3)).cli nB).fut 1 = some g ∧ g.answered) ∧
    World codec2 lib heap2.idOf srv sers2 ((pub1 ++ pubA :: pub2) ++ pubB :: pub3) ∧ ClientProc lib "tcp://a:1" csend Refs.init ∧
    SentAs codec2 (sys.run codec2 pub1) nA csend Refs.init (setItemReq (.str "x") (.list [.int 7])) "auto" "sync" 0 ∧
    SentAs codec2 (sys.run codec2 (pub1 ++ pubA :: pub2)) nB csend Refs.init (getItemReq (.str "x")) "auto" "sync" 1 :=
  have ⟨f, h1⟩ := isAnswered_spec pub_ansA
  have ⟨g, h2⟩ := isAnswered_spec pub_ansB
  ⟨f, g, h1, h2, pub_world, cproc, pub_sentA, pub_sentB⟩

/-- C93: the list can be sent to any server, and this is what B gets; its request before A's gave KeyError. -/
example (R : RecvEnv) : Ser.Sendable .msgpack R (.list [.int 7]) := by simp [Ser.Sendable, Sendable, SendableL]
example : (match ((sys.run codec2 ((pub1 ++ pubA :: pub2) ++ pubB :: pub3)).cli nB).fut 1, ((sys.run codec2 ((pub1 ++ pubA :: pub2) ++ pubB :: pub3)).cli nB).fut 0 with
    | some (.value (.list [.int 7])), some (.remote (.str "KeyError") _) => true
    | _, _ => false) = true := by decide +kernel
/-- C93: without its last hypothesis the conclusion is false: here A publishes again before the server reads B's request. -/
example : (match ((sys.run codec2 ((pub1 ++ pubA :: pub2) ++ pubB :: [req nA (setItemReq (.str "x") (.int 3)) "auto" "off", .serve nA heap2, .serve nB heap2, rd nB])).cli nB).fut 1 with
    | some (.value (.int 3)) => true
    | _ => false) = true := by decide +kernel

/-- C92: a proxy is handed out to object 5 and the client deletes the reference; deleting it again gives KeyError. -/
def del1 : List SEv := [.mkProxy heap2 (.obj 5 [.user 1]) [], .mkProxy heap2 (.obj 5 [.user 1]) []]
def delP : Proxy := ⟨"tcp://a:1", 0, 0, "type", []⟩
def del2 : List SEv := [.serve nB heap2, rd nB]
def delE : SEv := .ask nB csend Refs.init (deleteReq delP) "auto" "sync"
theorem del_world : World codec2 lib heap2.idOf srv sers2 ((del1 ++ delE :: del2) ++ delE :: del2) :=
  world2 (by simp [del1, del2, delE, rd, SEv.heap?]) (by
    simp only [del1, del2, delE, rd, List.cons_append, List.nil_append, List.mem_cons, List.not_mem_nil, reduceCtorEq, false_or, or_false, SEv.deliver.injEq]
    rintro n P j (h | h) <;> exact h.2.1)
example : SentAs codec2 (sys.run codec2 del1) nB csend Refs.init (deleteReq delP) "auto" "sync" 0 ∧
    SentAs codec2 (sys.run codec2 (del1 ++ delE :: del2)) nB csend Refs.init (deleteReq delP) "auto" "sync" 1 := ⟨.inr (by decide +kernel), .inr (by decide +kernel)⟩
example : (match ((sys.run codec2 ((del1 ++ delE :: del2) ++ delE :: del2)).cli nB).fut 0, ((sys.run codec2 ((del1 ++ delE :: del2) ++ delE :: del2)).cli nB).fut 1 with
    | some (.value .none), some (.remote (.str "KeyError") _) => true
    | _, _ => false) = true := by decide +kernel
example : (sys.run codec2 del1).srv.refs.refs.map (fun e => e.2.2) = [[0, 1]] ∧ (sys.run codec2 (del1 ++ delE :: del2)).srv.refs.refs.map (fun e => e.2.2) = [[1]] := by decide +kernel

end Ex

namespace Ex

/-! ## The theorems on these cases -/

theorem pub_worldA : World codec2 lib heap2.idOf srv sers2 (pub1 ++ pubA :: pub2) :=
  world2 (by simp [pub1, pub2, pubA, req, rd, SEv.heap?]) (by
    simp only [pub1, pub2, pubA, req, rd, List.cons_append, List.nil_append, List.mem_cons, List.not_mem_nil, reduceCtorEq, false_or, or_false, SEv.deliver.injEq]
    rintro n P j (h | h) <;> exact h.2.1)
example := C92_publish (tys := []) pub_worldA cproc pub_sentA (isAnswered_spec pub_ansA).choose_spec.1 (isAnswered_spec pub_ansA).choose_spec.2
example := C92_lookup (tys := []) (es1 := pub1 ++ pubA :: pub2) pub_world cproc pub_sentB (isAnswered_spec pub_ansB).choose_spec.1 (isAnswered_spec pub_ansB).choose_spec.2
example := C93_read_back (tys := []) pub_world cproc cproc pub_sentA pub_sentB (isAnswered_spec pub_ansA).choose_spec.1 (isAnswered_spec pub_ansA).choose_spec.2
  (isAnswered_spec pub_ansB).choose_spec.1 (isAnswered_spec pub_ansB).choose_spec.2
/-- The second deletion. -/
theorem del_ans : isAnswered codec2 ((del1 ++ delE :: del2) ++ delE :: del2) nB 1 = true := by decide +kernel
theorem del_done : ∃ f, (((Sys.init (Srv.init "tcp://a:1" [] self) sers2).run codec2
    ((del1 ++ delE :: del2) ++ .ask nB csend Refs.init (deleteReq delP) "auto" "sync" :: del2)).cli nB).fut 1 = some f ∧ f.answered := by
  have h := isAnswered_spec del_ans
  have e : delE = .ask nB csend Refs.init (deleteReq delP) "auto" "sync" := rfl
  simp only [sys, srv] at h; rw [show ((del1 ++ delE :: del2) ++ delE :: del2) = ((del1 ++ delE :: del2) ++ .ask nB csend Refs.init (deleteReq delP) "auto" "sync" :: del2) from by rw [← e]] at h; exact h
theorem del_sent : SentAs codec2 (sys.run codec2 (del1 ++ delE :: del2)) nB csend Refs.init (deleteReq delP) "auto" "sync" 1 := .inr (by decide +kernel)
example := C92_delete (tys := []) (es1 := del1 ++ delE :: del2) del_world cproc del_sent del_done.choose_spec.1 del_done.choose_spec.2

/-- A proxy is handed out to object 5 and the client asks for the object. -/
def getE : SEv := .ask nB csend Refs.init (getObjReq (.proxy delP)) "auto" "sync"
theorem get_world : World codec2 lib heap2.idOf srv sers2 (del1 ++ getE :: del2) :=
  world2 (by simp [del1, del2, getE, rd, SEv.heap?]) (by
    simp only [del1, del2, getE, rd, List.cons_append, List.nil_append, List.mem_cons, List.not_mem_nil, reduceCtorEq, false_or, or_false, SEv.deliver.injEq]
    rintro n P j h; exact h.2.1)
theorem get_ans : isAnswered codec2 (del1 ++ getE :: del2) nB 0 = true := by decide +kernel
theorem get_done : ∃ f, (((Sys.init (Srv.init "tcp://a:1" [] self) sers2).run codec2
    (del1 ++ .ask nB csend Refs.init (getObjReq (.proxy delP)) "auto" "sync" :: del2)).cli nB).fut 0 = some f ∧ f.answered := by
  have h := isAnswered_spec get_ans
  simp only [getE, sys, srv] at h; exact h
theorem get_sent : SentAs codec2 (sys.run codec2 del1) nB csend Refs.init (getObjReq (.proxy delP)) "auto" "sync" 0 := .inr (by decide +kernel)
example := C92_transfer (tys := []) (es1 := del1) get_world cproc get_sent get_done.choose_spec.1 get_done.choose_spec.2

end Ex

end Verif
