import Verif.Props.Requests
/-!
# C92 (continued): importing modules and pinging, from end to end

`client._import(module)` starts code of the server's process (`__import__`), so it ends in a later step than the one that reads the message; `client.ping()` has no options.
-/
namespace Verif

/-- A request with options whose future is answered was carried out, and wherever the server reads its message, it reads these options, as the serializer carries them. -/
theorem request_executed {K : Codec} {L : Lib} {idOf : Obj → Nat} {addr : String} {tys : List Ty} {self : Val} {sers : Bytes → Ser}
    {es1 es2 : List SEv} {n : Bytes} {E : SendEnv} {t : Refs} {a rt sy : String} {d0 : List (Val × Val)}
    (W : World K L idOf (Srv.init addr tys self) sers (es1 ++ .request n E t a (some (.dict d0)) rt sy :: es2))
    (hE : ClientProc L addr E t)
    {k : Nat} (hsent : SentAs K ((Sys.init (Srv.init addr tys self) sers).run K es1) n E t (a, some (.dict d0)) rt sy k)
    {f : Fut} (hf : (((Sys.init (Srv.init addr tys self) sers).run K (es1 ++ .request n E t a (some (.dict d0)) rt sy :: es2)).cli n).fut k = some f)
    (ha : f.answered) :
    ∃ w t' H r s1 s2 P junk,
      Execution (Srv.init addr tys self) ((Sys.init (Srv.init addr tys self) sers).srvHist K (es1 ++ .request n E t a (some (.dict d0)) rt sy :: es2)) n
        (Asked.parts K ⟨k, a, rt, sers n, some w⟩) k rt H r s1 s2 ∧
      SEv.deliver n P junk ∈ es1 ++ .request n E t a (some (.dict d0)) rt sy :: es2 ∧ Reports L n k H P.recv (sers n) s1 s2.refs rt r f ∧
      ∀ pre H1 post, (Sys.init (Srv.init addr tys self) sers).srvHist K (es1 ++ .request n E t a (some (.dict d0)) rt sy :: es2) =
          pre ++ .recv H1 (n :: Asked.parts K ⟨k, a, rt, sers n, some w⟩) :: post →
        (sers n).Sendable (((Srv.init addr tys self).run pre).1.recvEnv H1) (.dict d0) →
        ∃ b d, readOne H1 (n :: Asked.parts K ⟨k, a, rt, sers n, some w⟩) = .ok (n, ⟨k, a, rt, (sers n).name, b⟩) ∧
          Msg.payload H1 ((Srv.init addr tys self).run pre).1 ⟨k, a, rt, (sers n).name, b⟩ (sers n) = .ok (.dict d) ∧
          (sers n).Arrives L E.tys (ByProxy E (((Srv.init addr tys self).run pre).1.recvEnv H1) t') (.dict d0) (.dict d) := by
  obtain ⟨h, hreach, halive⟩ := hE.refs
  obtain ⟨q, hq, hid, huniq, H, r, s1, s2, P, junk, hex, hdel, hrep⟩ := C34_result W hf ha
  obtain ⟨t', w, hdump, hask⟩ := send_future_asked hsent
  have hcs : (((Sys.init (Srv.init addr tys self) sers).run K es1).cli n).ser = sers n := by
    rw [sys_run_cli]; exact (run_const K _ _).2.1
  rw [hcs] at hask hdump
  have hmem : (⟨k, a, rt, sers n, some w⟩ : Asked) ∈
      (Sys.init (Srv.init addr tys self) sers).asked K (es1 ++ .request n E t a (some (.dict d0)) rt sy :: es2) n := by
    rw [sys_asked_append, sys_asked_cons]
    have : ((Sys.init (Srv.init addr tys self) sers).run K es1).cliEvs n (.request n E t a (some (.dict d0)) rt sy) = [.send E t a (some (.dict d0)) rt sy] := by
      simp [Sys.cliEvs]
    rw [this, hask]; simp
  have hqe := huniq _ hmem rfl
  subst hqe
  refine ⟨w, t', H, r, s1, s2, P, junk, hex, hdel, hrep, fun pre H1 post hhist hs => ?_⟩
  obtain ⟨se, hse, hheap⟩ := srvHist_heap (e := Ev.recv H1 (n :: Asked.parts K ⟨k, a, rt, sers n, some w⟩)) (by rw [hhist]; simp)
  have hfit : Fits K H1 := W.fits se hse _ hheap
  have hH : H1.lib = L := W.lib se hse _ hheap
  have hsm : (sers n).Small w := W.small n E t a (.dict d0) rt sy w (by simp) (by rw [hdump])
  have hlink : Link L E (((Srv.init addr tys self).run pre).1.recvEnv H1) := by
    refine ⟨W.laws, hE.lib, hH, hE.types, ?_⟩
    intro a' u hu hs
    simp only [Srv.recvEnv, Option.some.injEq, Prod.mk.injEq] at hu
    rw [(run_const_srv pre (Srv.init addr tys self)).2] at hu
    rw [← hu.1] at hs
    exact hE.server hs
  obtain ⟨v', h1, h2⟩ := ser_transport hlink hreach halive hs hdump
  have : ∃ d, v' = .dict d := by
    revert h2
    cases sers n with
    | msgpack => intro h2; simp only [Ser.Arrives, Arrives] at h2; obtain ⟨d', h, _⟩ := h2; exact ⟨d', h⟩
    | json => intro h2; simp only [Ser.Arrives, JArrives] at h2; obtain ⟨d', h, _⟩ := h2; exact ⟨d', h⟩
  obtain ⟨d, rfl⟩ := this
  refine ⟨_, d, readOne_parts hfit n _, ?_, h2⟩
  have := hfit.tree (sers n) w (dumps_writable (by rw [hdump]) hsm)
  rw [← h1]
  simp [Msg.payload, this.1, this.2]

/-- what an import of a dotted name starts -/
theorem import_begins {H : Heap} {s : Srv} {c : Bytes} {m : String} :
    Srv.action H s c "import" (.dict [(.str "module", .str m)]) = .running s [.importing m (.list [])] (.imp m (.list [])) := by
  simp [Srv.action, optGet, optGetD, lookupStr, bind, Except.bind, pure, Except.pure, Val.text?, Val.core]

/-- **C92** (`client._import("p.p1. … .pn")`) In any run, if the future of this request is answered, the server read the request and told Python to import the module of exactly this name;
that code ended later, `__import__` having returned `mod` or raised `e`. The future reports `e`, or what the attributes `p1, …, pn` led to from `mod`, or what reading them raised. -/
theorem C92_import {K : Codec} {L : Lib} {idOf : Obj → Nat} {addr : String} {tys : List Ty} {self : Val} {sers : Bytes → Ser}
    {es1 es2 : List SEv} {n : Bytes} {E : SendEnv} {t : Refs} {rt sy p : String} {ps : List String} (hp : p ≠ "") (hdots : ∀ q ∈ p :: ps, '.' ∉ q.toList)
    (W : World K L idOf (Srv.init addr tys self) sers (es1 ++ .ask n E t (importReq (.str (String.intercalate "." (p :: ps)))) rt sy :: es2)) (hE : ClientProc L addr E t)
    {k : Nat} (hsent : SentAs K ((Sys.init (Srv.init addr tys self) sers).run K es1) n E t (importReq (.str (String.intercalate "." (p :: ps)))) rt sy k)
    {f : Fut} (hf : (((Sys.init (Srv.init addr tys self) sers).run K (es1 ++ .ask n E t (importReq (.str (String.intercalate "." (p :: ps)))) rt sy :: es2)).cli n).fut k = some f)
    (ha : f.answered) :
    ∃ pre H1 parts mid H2 r0 post task,
      (Sys.init (Srv.init addr tys self) sers).srvHist K (es1 ++ .ask n E t (importReq (.str (String.intercalate "." (p :: ps)))) rt sy :: es2) =
        pre ++ .recv H1 (n :: parts) :: (mid ++ .ret H2 r0 :: post) ∧
      let s0 := ((Srv.init addr tys self).run pre).1
      -- the import is begun, once
      (s0.step (.recv H1 (n :: parts))).2 = [.accept n k "import" (sers n).name, .importing (String.intercalate "." (p :: ps)) (.list [])] ∧
      (s0.step (.recv H1 (n :: parts))).1.stack = ⟨n, k, rt, task⟩ :: s0.stack ∧
      -- and ends
      (∀ x y, mid = x ++ y → ∃ l, ((Srv.init addr tys self).run (pre ++ .recv H1 (n :: parts) :: x)).1.stack = l ++ ⟨n, k, rt, task⟩ :: s0.stack) ∧
      ((Srv.init addr tys self).run (pre ++ .recv H1 (n :: parts) :: mid)).1.stack = ⟨n, k, rt, task⟩ :: s0.stack ∧
      -- with the outcome reported
      ∃ r, ((∃ e, r0 = .error e ∧ r = .error e) ∨ (∃ mod x, r0 = .ok mod ∧ AttrChain H2.ga mod ps x ∧ r = .ok x) ∨
          ∃ mod e, r0 = .ok mod ∧ AttrRaises H2.ga mod ps e ∧ r = .error e) ∧
        ∃ P junk, SEv.deliver n P junk ∈ es1 ++ .ask n E t (importReq (.str (String.intercalate "." (p :: ps)))) rt sy :: es2 ∧
          Reports L n k H2 P.recv (sers n) { ((Srv.init addr tys self).run (pre ++ .recv H1 (n :: parts) :: mid)).1 with stack := s0.stack }
            ((Srv.init addr tys self).run (pre ++ .recv H1 (n :: parts) :: (mid ++ [.ret H2 r0]))).1.refs rt r f := by
  obtain ⟨w, t', H, r, s1, s2, P, junk, hex, hdel, hrep, hopts⟩ :=
    request_executed (a := "import") (d0 := [(.str "module", .str (String.intercalate "." (p :: ps)))]) W hE hsent hf ha
  have hsend : ∀ R, (sers n).Sendable R (.dict [(.str "module", .str (String.intercalate "." (p :: ps)))]) :=
    fun R => opts_sendable1 (by decide) (str_sendable ..)
  cases hex with
  | @atOnce pre post _ _ _ hhist hcomp =>
    exfalso
    obtain ⟨b, d, g1, g2, g3⟩ := hopts _ _ _ hhist (hsend _)
    obtain ⟨x', rfl, hx⟩ := opts_arrive1 g3
    cases str_arrives hx
    rcases hcomp with ⟨out, a', st, b', ser, opts, h1, hserv, h2, hu, h3, h4⟩ | ⟨H', parts', m, x, ser, he, hserv, hrd, hk, hrt, hser, herr, _⟩
    · rw [g1] at h1
      simp only [Except.ok.injEq, Prod.mk.injEq, Msg.mk.injEq, true_and] at h1
      obtain ⟨rfl, rfl, rfl⟩ := h1
      rw [serOf_name] at h2; cases h2
      have h3 := g2.symm.trans h3; cases h3
      rw [import_begins] at h4
      cases h4
    · simp only [Ev.recv.injEq] at he
      obtain ⟨rfl, rfl⟩ := he
      rw [g1] at hrd
      simp only [Except.ok.injEq, Prod.mk.injEq, true_and] at hrd
      subst hrd
      simp only [serOf_name, Option.some.injEq] at hser
      subst hser
      rw [g2] at herr
      cases herr
  | @later pre mid post H1 _ r0 task hhist hbeg hkeep hend =>
    obtain ⟨b, d, g1, g2, g3⟩ := hopts _ _ _ hhist (hsend _)
    obtain ⟨x', rfl, hx⟩ := opts_arrive1 g3
    cases str_arrives hx
    obtain ⟨a', st, b', ser, opts, o, h1, hserv, h2, h3, h4⟩ := hbeg
    rw [g1] at h1
    simp only [Except.ok.injEq, Prod.mk.injEq, Msg.mk.injEq, true_and] at h1
    obtain ⟨rfl, rfl, rfl⟩ := h1
    rw [serOf_name] at h2; cases h2
    have h3 := g2.symm.trans h3; cases h3
    have hu : H1.utf8 n ≠ none := by
      intro hu
      obtain ⟨l, hl⟩ := hkeep [] mid rfl
      rw [run_snoc] at hl
      have : (((Srv.init addr tys self).run pre).1.step (.recv H1 (n :: Asked.parts K ⟨k, "import", rt, sers n, some w⟩))).1.stack =
          ((Srv.init addr tys self).run pre).1.stack := by
        simp only [Srv.step, hserv.1, hserv.2.1, hserv.2.2, g1, Bool.or_self, Bool.false_eq_true, Bool.true_eq_false, if_false, Srv.process, serOf_name, hu]
        exact finish_stack ..
      rw [this] at hl
      have := congrArg List.length hl
      simp at this
      omega
    have hasks : Asks H1 ((Srv.init addr tys self).run pre).1 (n :: Asked.parts K ⟨k, "import", rt, sers n, some w⟩) n k "import" rt (sers n).name
        (.dict [(.str "module", .str (String.intercalate "." (p :: ps)))]) := ⟨hserv, hu, b, sers n, g1, serOf_name _, g2⟩
    obtain ⟨task', h5, h6, h7, h8⟩ := C71_import hasks (p := p) (ps := ps) (by simp [lookupStr]) (by simp [lookupStr]) hp hdots
    have htask : task' = task := by
      obtain ⟨l, hl⟩ := hkeep [] mid rfl
      rw [run_snoc, h5] at hl
      have hlen := congrArg List.length hl
      simp only [List.length_cons, List.length_append] at hlen
      have : l = [] := List.eq_nil_of_length_eq_zero (by omega)
      subst this
      simp at hl
      exact hl
    subst htask
    refine ⟨pre, H1, _, mid, H, r0, post, task', hhist, by rw [h5], by rw [h5], hkeep, hend, task'.result H r0, ?_, P, junk, hdel, hrep⟩
    cases r0 with
    | error e => exact .inl ⟨e, rfl, h6 ..⟩
    | ok mod =>
      cases hres : task'.result H (.ok mod) with
      | ok x => exact .inr (.inl ⟨mod, x, rfl, (h7 ..).1 hres, rfl⟩)
      | error e => exact .inr (.inr ⟨mod, e, rfl, (h8 ..).1 hres, rfl⟩)

/-- a sent request without options is the last one asked -/
theorem send_future_asked0 {K : Codec} {E : SendEnv} {t : Refs} {c : Cli} {a : String} {rt sy : String} {k : Nat}
    (h : (c.send K E t a none rt sy).2.2.2 = .ok (.future k) ∨ (c.send K E t a none rt sy).2.2.2 = .ok (.wait k)) :
    c.asked K [.send E t a none rt sy] = [⟨k, a, rt, c.ser, none⟩] := by
  simp only [Cli.asked, Cli.send] at h ⊢
  by_cases hd : c.disconnected
  · simp [hd] at h
  simp only [hd, Bool.false_eq_true, if_false] at h ⊢
  by_cases hoff : sy = "off"
  · subst hoff
    simp only [if_true] at h
    by_cases hs : c.sockOpen = false <;> simp [hs] at h
  · simp only [hoff, if_false] at h ⊢
    by_cases hs : c.sockOpen = false
    · simp [hs] at h
    · simp only [hs, Nat.add_sub_cancel] at h ⊢
      by_cases h1 : sy = "async"
      · simp [h1] at h ⊢; omega
      · by_cases h2 : sy = "sync"
        · simp [h2] at h ⊢; omega
        · simp [h1, h2] at h

/-- **C92** (`client.ping()`) In any run, if the future of this request is answered, the server read the request, did nothing but answer, and the future reports `"pong"`. -/
theorem C92_ping {K : Codec} {L : Lib} {idOf : Obj → Nat} {addr : String} {tys : List Ty} {self : Val} {sers : Bytes → Ser}
    {es1 es2 : List SEv} {n : Bytes} {E : SendEnv} {t : Refs} {rt sy : String}
    (W : World K L idOf (Srv.init addr tys self) sers (es1 ++ .ask n E t pingReq rt sy :: es2))
    {k : Nat} (hsent : SentAs K ((Sys.init (Srv.init addr tys self) sers).run K es1) n E t pingReq rt sy k)
    {f : Fut} (hf : (((Sys.init (Srv.init addr tys self) sers).run K (es1 ++ .ask n E t pingReq rt sy :: es2)).cli n).fut k = some f) (ha : f.answered) :
    ∃ pre H1 parts post, (Sys.init (Srv.init addr tys self) sers).srvHist K (es1 ++ .ask n E t pingReq rt sy :: es2) = pre ++ .recv H1 (n :: parts) :: post ∧
      let s0 := ((Srv.init addr tys self).run pre).1
      let s2 := ((Srv.init addr tys self).run (pre ++ [.recv H1 (n :: parts)])).1
      s2.ns = s0.ns ∧ s2.stack = s0.stack ∧
        ∃ P junk, SEv.deliver n P junk ∈ es1 ++ .ask n E t pingReq rt sy :: es2 ∧ Reports L n k H1 P.recv (sers n) s0 s2.refs rt (.ok (.str "pong")) f := by
  obtain ⟨q, hq, hid, huniq, H, r, s1, s2, P, junk, hex, hdel, hrep⟩ := C34_result W hf ha
  have hask := send_future_asked0 hsent
  have hcs : (((Sys.init (Srv.init addr tys self) sers).run K es1).cli n).ser = sers n := by
    rw [sys_run_cli]; exact (run_const K _ _).2.1
  rw [hcs] at hask
  have hmem : (⟨k, "ping", rt, sers n, none⟩ : Asked) ∈ (Sys.init (Srv.init addr tys self) sers).asked K (es1 ++ .ask n E t pingReq rt sy :: es2) n := by
    rw [sys_asked_append, sys_asked_cons]
    have : ((Sys.init (Srv.init addr tys self) sers).run K es1).cliEvs n (.ask n E t pingReq rt sy) = [.send E t "ping" none rt sy] := by
      simp [Sys.cliEvs, pingReq]
    rw [this]
    rw [show Cli.asked K _ [CEv.send E t "ping" none rt sy] = _ from hask]; simp [pingReq]
  have hqe := huniq _ hmem rfl
  subst hqe
  have hread : ∀ H1, Ev.recv H1 (n :: Asked.parts K ⟨k, "ping", rt, sers n, none⟩) ∈ (Sys.init (Srv.init addr tys self) sers).srvHist K (es1 ++ .ask n E t pingReq rt sy :: es2) →
      readOne H1 (n :: Asked.parts K ⟨k, "ping", rt, sers n, none⟩) = .ok (n, ⟨k, "ping", rt, (sers n).name, []⟩) := by
    intro H1 hin
    obtain ⟨se, hse, hheap⟩ := srvHist_heap hin
    have hfit : Fits K H1 := W.fits se hse _ hheap
    exact readOne_parts hfit n _
  cases hex with
  | @atOnce pre post _ _ _ hhist hcomp =>
    have g1 := hread H (by rw [hhist]; simp)
    rcases hcomp with ⟨out, hout⟩ | ⟨H', parts', m, x, ser, he, hserv, hrd, hk, hrt, hser, herr, _⟩
    · have hns := outcome_ns hout
      have hst := completes_state (.inl ⟨_, hout⟩)
      obtain ⟨cl, pre', h5, -⟩ := step_outcome hout
      have hstk : (((Srv.init addr tys self).run pre).1.step (.recv H (n :: Asked.parts K ⟨k, "ping", rt, sers n, none⟩))).1.stack = s1.stack := by
        rw [h5]; exact finish_stack ..
      obtain ⟨a', st, b', ser, opts, h1, hserv, h2, hu, h3, h4⟩ := hout
      rw [g1] at h1
      simp only [Except.ok.injEq, Prod.mk.injEq, Msg.mk.injEq, true_and] at h1
      obtain ⟨rfl, rfl, rfl⟩ := h1
      cases h4
      refine ⟨pre, H, _, post, hhist, ?_, ?_, P, junk, hdel, reports_congr hst.2.2 hst.2.1 hrep⟩
      · rw [run_snoc, hns]
      · rw [run_snoc, hstk]
    · exfalso
      simp only [Ev.recv.injEq] at he
      obtain ⟨rfl, rfl⟩ := he
      rw [g1] at hrd
      simp only [Except.ok.injEq, Prod.mk.injEq, true_and] at hrd
      subst hrd
      simp [Msg.payload] at herr
  | @later pre mid post H1 _ r0 task hhist hbeg hkeep hend =>
    exfalso
    have g1 := hread H1 (by rw [hhist]; simp)
    obtain ⟨a', st, b', ser, opts, o, h1, hserv, h2, h3, h4⟩ := hbeg
    rw [g1] at h1
    simp only [Except.ok.injEq, Prod.mk.injEq, Msg.mk.injEq, true_and] at h1
    obtain ⟨rfl, rfl, rfl⟩ := h1
    simp [Srv.action] at h4

namespace Ex

/-- Client B imports `os.path` and pings, client A pings while the import is running; `__import__` returns object 5, whose attribute `path` is read. -/
def imp1 : List SEv := [req nA pingReq "auto" "sync"]
def impB : SEv := .ask nB csend Refs.init (importReq (.str (String.intercalate "." ["os", "path"]))) "auto" "sync"
def imp2 : List SEv := [.serve nB heap2, .serve nA heap2, rd nA, .ret heap2 (.ok (.obj 5 [.user 1])), rd nB]
theorem imp_world : World codec2 lib heap2.idOf srv sers2 (imp1 ++ impB :: imp2) :=
  world2 (by simp [imp1, imp2, impB, req, rd, SEv.heap?]) (by
    simp only [imp1, imp2, impB, req, rd, List.cons_append, List.nil_append, List.mem_cons, List.not_mem_nil, reduceCtorEq, false_or, or_false, SEv.deliver.injEq]
    rintro n P j (h | h) <;> exact h.2.1)
theorem imp_sentB : SentAs codec2 (sys.run codec2 imp1) nB csend Refs.init (importReq (.str (String.intercalate "." ["os", "path"]))) "auto" "sync" 0 := .inr (by decide +kernel)
theorem imp_sentA : SentAs codec2 (sys.run codec2 []) nA csend Refs.init pingReq "auto" "sync" 0 := .inr (by decide +kernel)
theorem imp_ne : "os" ≠ "" := by decide
theorem imp_dots : ∀ q ∈ ["os", "path"], '.' ∉ q.toList := by decide +kernel
theorem imp_ansB : isAnswered codec2 (imp1 ++ impB :: imp2) nB 0 = true := by decide +kernel
theorem imp_ansA : isAnswered codec2 (imp1 ++ impB :: imp2) nA 0 = true := by decide +kernel

/-- C92: the hypotheses of the two theorems are met. -/
example : ∃ f, (((sys.run codec2 (imp1 ++ impB :: imp2)).cli nB).fut 0 = some f ∧ f.answered) ∧ World codec2 lib heap2.idOf srv sers2 (imp1 ++ impB :: imp2) ∧
    ClientProc lib "tcp://a:1" csend Refs.init ∧ SentAs codec2 (sys.run codec2 imp1) nB csend Refs.init (importReq (.str (String.intercalate "." ["os", "path"]))) "auto" "sync" 0 :=
  have ⟨f, h⟩ := isAnswered_spec imp_ansB
  ⟨f, h, imp_world, cproc, imp_sentB⟩
example : ∃ f, (((sys.run codec2 (imp1 ++ impB :: imp2)).cli nA).fut 0 = some f ∧ f.answered) ∧ SentAs codec2 (sys.run codec2 []) nA csend Refs.init pingReq "auto" "sync" 0 :=
  have ⟨f, h⟩ := isAnswered_spec imp_ansA
  ⟨f, h, imp_sentA⟩
/-- C92: this is what the ping gave. -/
example : (match ((sys.run codec2 (imp1 ++ impB :: imp2)).cli nA).fut 0 with
    | some (.value (.str s)) => s = "pong"
    | _ => false) = true := by decide +kernel

end Ex

end Verif
