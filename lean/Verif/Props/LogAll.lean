import Verif.Proof.LogAll
/-!
# C143: what any process logs is written once

`logNetEvs es` is what happens to senders, messages and the server; in it the process `i` does `inProc i (logNetEvs es)`.
-/
namespace Verif

/-- **C143** In every history what the handler has treated (written, or failed to format) and what it still holds are, together, exactly the records of its own
process and the records the server passed on, each once. -/
theorem C143_once (L : Lib) (fmt lt) (E : LogEnv) (ms) (N : Nat → LogNames) (a : Bytes) (filter : Bool) (levels : List Int) (now : Int) (es : List LogAllEv) :
    ((hdlOuts ((LogAll.init N a filter levels now).run L fmt lt E ms es).2).map LogOut.record ++ ((LogAll.init N a filter levels now).run L fmt lt E ms es).1.hdl.pending).Perm
      (ownRecords es ++ seenFrom ms 0 (passedOf (ofServer (logNetOuts ((LogAll.init N a filter levels now).run L fmt lt E ms es).2)))) := by
  obtain ⟨_, _, h3, h4, h5⟩ := all_run L fmt lt E ms es (LogAll.init N a filter levels now)
  rw [h3, h4]
  exact (C53_conserved E now [] _).trans h5

/-- **C143** The records the server passed on are records the processes logged: they are those read (`C139_merged` says where these come from) that are not below the
level of the logger. -/
theorem C143_passed (L : Lib) (fmt lt) (E : LogEnv) (ms) (N : Nat → LogNames) (a : Bytes) (filter : Bool) (levels : List Int) (now : Int) (es : List LogAllEv)
    (hg : ∀ i, ∀ r ∈ handledOf (inProc i (logNetEvs es)), Levelled r) :
    ∃ B : List (Nat × Fields),
      (passedOf (ofServer (logNetOuts ((LogAll.init N a filter levels now).run L fmt lt E ms es).2))).Sublist (B.map (·.2)) ∧
      (∀ i, Calm (inProc i (logNetEvs es)) →
        ∃ k, Zip (fun r d => PlainRecord fmt r → ∃ M ∈ namesOf (N i) (inProc i (logNetEvs es)), Arrived fmt M r d) ((handledOf (inProc i (logNetEvs es))).take k) (fromProc i B)) ∧
      ∀ i d, (i, d) ∈ B → ∃ r ∈ handledOf (inProc i (logNetEvs es)), PlainRecord fmt r → ∃ M ∈ namesOf (N i) (inProc i (logNetEvs es)), Arrived fmt M r d := by
  obtain ⟨B, b1, _, b2, b3⟩ := C139_merged L fmt lt N a filter levels (logNetEvs es) hg
  refine ⟨B, ?_, b2, b3⟩
  rw [(all_run L fmt lt E ms es (LogAll.init N a filter levels now)).2.1]
  have hp := C139_passed L fmt lt N a filter levels (logNetEvs es)
  rw [show (LogAll.init N a filter levels now).net = LogNetSt.init N a filter levels from rfl, hp, b1]
  exact List.filter_sublist.map _

/-- **C143** If all senders are undisturbed, all records are plain and not below the level of the server, the server is not stopped and nobody calls `flush_records`,
it only takes going on until every record of every process has been treated by the handler, exactly once, and each that can be formatted is on the stream. -/
theorem C143_all (L : Lib) (fmt lt) (E : LogEnv) (ms) (N : Nat → LogNames) (a : Bytes) (filter : Bool) (levels : List Int) (now : Int) (es : List LogAllEv)
    (hc : ∀ i, Calm (inProc i (logNetEvs es))) (hg : ∀ i, ∀ r ∈ handledOf (inProc i (logNetEvs es)), PlainRecord fmt r ∧ Levelled r)
    (hl : filter = false ∨ (∀ l, .net (.setLevels l) ∉ es) ∧
      ∀ i, ∀ r ∈ handledOf (inProc i (logNetEvs es)), ∃ n, r.get? "levelno" = some (.int n) ∧ effectiveLevel levels ≤ n)
    (hs : .net .stop ∉ es) (hf : .hdl .flush ∉ es) :
    ∃ es', (∀ e ∈ es', e.goesOn) ∧ ∃ B : List (Nat × Fields),
      (∀ i, Zip (fun r d => ∃ M ∈ namesOf (N i) (inProc i (logNetEvs es)), Arrived fmt M r d) (handledOf (inProc i (logNetEvs es))) (fromProc i B)) ∧
      ((hdlOuts ((LogAll.init N a filter levels now).run L fmt lt E ms (es ++ es')).2).map LogOut.record).Perm (ownRecords es ++ seenFrom ms 0 (B.map (·.2))) ∧
      ∀ o ∈ hdlOuts ((LogAll.init N a filter levels now).run L fmt lt E ms (es ++ es')).2, Writable E o.record → ∃ line, o = .wrote o.record line := by
  have hnet : ∀ e, e ∈ logNetEvs es ↔ .net e ∈ es := by
    intro e
    simp only [logNetEvs, List.mem_filterMap]
    constructor
    · rintro ⟨x, hx, h⟩
      cases x with
      | net x => simp only [Option.some.injEq] at h; exact h ▸ hx
      | hdl x => cases h
    · exact fun h => ⟨_, h, rfl⟩
  obtain ⟨ns, g1, B, b1, b2⟩ := C139_all L fmt lt N a filter levels (logNetEvs es) hc hg (fun h => hs ((hnet _).mp h))
  obtain ⟨ps, p1, p2, p3⟩ := C53_progress E ((LogAll.init N a filter levels now).run L fmt lt E ms (es ++ ns.map .net)).1.hdl
  have hgo : ∀ e ∈ ns.map LogAllEv.net ++ ps.map LogAllEv.hdl, e.goesOn := by
    intro e he
    simp only [List.mem_append, List.mem_map] at he
    rcases he with ⟨x, hx, rfl⟩ | ⟨x, hx, rfl⟩
    · exact g1 x hx
    · rcases p1 x hx with rfl | ⟨d, rfl⟩ <;> trivial
  refine ⟨ns.map .net ++ ps.map .hdl, hgo, B, b2, ?_⟩
  have hnf : .hdl .flush ∉ es ++ (ns.map LogAllEv.net ++ ps.map LogAllEv.hdl) := by
    intro h
    rcases List.mem_append.mp h with h | h
    · exact hf h
    · exact hgo _ h
  obtain ⟨_, h2, h3, h4, h5⟩ := all_run L fmt lt E ms (es ++ (ns.map .net ++ ps.map .hdl)) (LogAll.init N a filter levels now)
  rw [h4]
  refine ⟨?_, C53_written E _ _⟩
  have hcons := C53_conserved E now [] (handlerSees L fmt lt E ms (LogAll.init N a filter levels now) (es ++ (ns.map .net ++ ps.map .hdl)))
  -- nothing is left
  have hend : ((HandlerSt.init now []).run E (handlerSees L fmt lt E ms (LogAll.init N a filter levels now) (es ++ (ns.map .net ++ ps.map .hdl)))).1.pending = [] := by
    have hfl := no_flush E _ (HandlerSt.init now []) rfl (sees_flush (L := L) (fmt := fmt) (lt := lt) (E := E) (ms := ms) _ (LogAll.init N a filter levels now) hnf)
    have hlast : ((LogAll.init N a filter levels now).run L fmt lt E ms (es ++ (ns.map .net ++ ps.map .hdl))).1.hdl =
        (((LogAll.init N a filter levels now).run L fmt lt E ms (es ++ ns.map .net)).1.hdl.run E ps).1 := by
      rw [← List.append_assoc, all_run_append, (all_run L fmt lt E ms (ps.map .hdl) _).2.2.1]
      rw [sees_hdl]
    rw [← hlast, h3] at p2 p3
    have p2' : ((HandlerSt.init now []).run E (handlerSees L fmt lt E ms (LogAll.init N a filter levels now) (es ++ (ns.map .net ++ ps.map .hdl)))).1.poll = .top := p2
    have p3' : ((HandlerSt.init now []).run E (handlerSees L fmt lt E ms (LogAll.init N a filter levels now) (es ++ (ns.map .net ++ ps.map .hdl)))).1.records = [] := p3
    simp only [HandlerSt.pending, hfl, p2', p3', List.flatten_nil, List.append_nil]
  rw [hend, List.append_nil] at hcons
  refine hcons.trans (h5.trans ?_)
  have hown : ownRecords (es ++ (ns.map LogAllEv.net ++ ps.map LogAllEv.hdl)) = ownRecords es := by
    rw [ownRecords, hdlEvs_append, hdlEvs_append, hdlEvs_net, hdlEvs_hdl, List.nil_append, emittedOf_append']
    have : emittedOf ps = [] := by
      rw [emittedOf, List.filterMap_eq_nil_iff]
      intro e he
      rcases p1 e he with rfl | ⟨d, rfl⟩ <;> rfl
    rw [this, List.append_nil]; rfl
  have hne : logNetEvs (es ++ (ns.map LogAllEv.net ++ ps.map LogAllEv.hdl)) = logNetEvs es ++ ns := by
    rw [logNetEvs_append, logNetEvs_append, logNetEvs_net, logNetEvs_hdl, List.append_nil]
  rw [hown, h2, hne]
  have hp := C139_passed L fmt lt N a filter levels (logNetEvs es ++ ns)
  have hpass : passedOf (ofServer ((LogNetSt.init N a filter levels).run L fmt lt (logNetEvs es ++ ns)).2) = B.map (·.2) := by
    rw [hp, b1]
    congr 1
    rw [List.filter_eq_self]
    intro rl hrl
    rcases hl with rfl | ⟨hl1, hl2⟩
    · rfl
    have hlev := net_levels (L := L) (fmt := fmt) (lt := lt) (logNetEvs es ++ ns) (LogNetSt.init N a filter levels) (by
      intro l h
      rcases List.mem_append.mp h with h | h
      · exact hl1 l ((hnet _).mp h)
      · exact g1 _ h) rl hrl
    have hmem : rl.1 ∈ B.map (·.2) := by rw [b1]; exact List.mem_map.mpr ⟨rl, hrl, rfl⟩
    obtain ⟨⟨i, d⟩, hd, hdr⟩ := List.mem_map.mp hmem
    obtain ⟨r, hr, M, _, harr⟩ := zip_right (b2 i) d (mem_fromProc hd)
    obtain ⟨n, hn, hle⟩ := hl2 i r hr
    have hd' : d.get? "levelno" = some (.int n) := harr.same _ _ (by decide) (by decide) (by decide) (by decide) (by decide) hn
    simp only at hdr
    have : levelBelow lt rl.1 rl.2 = .ok false := by
      rw [← hdr, hlev, C55_level lt d n _ hd']
      exact hle
    simp [this]
  rw [show (LogAll.init N a filter levels now).net = LogNetSt.init N a filter levels from rfl, hpass]
  exact List.Perm.refl _

/-- **C143** The label of a record that arrived from another process shows the process and the thread where it was logged, when it was created, and its level. -/
theorem C143_label (fmt) (M : LogNames) (r d : Fields) (h : Arrived fmt M r d) (E : LogEnv) (ms) (k : Nat) (p t : String) (i n : Int) (hp : M.process = some p)
    (ht : r.get? "thread" = some (.int i)) (ht' : M.threads.get? i = some t) (hn : r.get? "levelno" = some (.int n)) :
    (E.headerKey (recordSeen ms k d)).2 = (p, t) ∧ (recordSeen ms k d).level = n ∧ (recordSeen ms k d).thread = i.toNat ∧
    (∀ f, r.get? "created" = some (.float f) → (recordSeen ms k d).created = ms f) ∧
    ∀ sec, r.get? "created" = some (.int sec) → (recordSeen ms k d).created = sec * 1000 := by
  have same : ∀ x v, x ≠ "args" → x ≠ "msg" → x ≠ "process_name" → x ≠ "thread_name" → x ≠ "host_name" → r.get? x = some v → d.get? x = some v := h.same
  refine ⟨?_, ?_, ?_, fun f hc => ?_, fun f hc => ?_⟩
  · simp only [LogEnv.headerKey, recordSeen, h.process p hp, h.thread i t ht ht', Option.getD_some]
  · simp only [recordSeen, same "levelno" _ (by decide) (by decide) (by decide) (by decide) (by decide) hn]
  · simp only [recordSeen, same "thread" _ (by decide) (by decide) (by decide) (by decide) (by decide) ht]
  · simp only [recordSeen, same "created" _ (by decide) (by decide) (by decide) (by decide) (by decide) hc]
  · simp only [recordSeen, same "created" _ (by decide) (by decide) (by decide) (by decide) (by decide) hc]

/-- **C143** If nobody calls `flush_records` and every record, wherever it was logged, reaches the handler at most 0.2 s after its creation, the records of all processes are
on the stream in the order of their creation. -/
theorem C143_order (L : Lib) (fmt lt) (E : LogEnv) (ms) (N : Nat → LogNames) (a : Bytes) (filter : Bool) (levels : List Int) (now : Int) (es : List LogAllEv)
    (hf : .hdl .flush ∉ es) (ht : InTime 200 now (handlerSees L fmt lt E ms (LogAll.init N a filter levels now) es)) :
    (writtenOf (hdlOuts ((LogAll.init N a filter levels now).run L fmt lt E ms es).2)).Pairwise fun x y => x.created ≤ y.created := by
  rw [(all_run L fmt lt E ms es (LogAll.init N a filter levels now)).2.2.2.1]
  exact C54_stream (sees_flush _ _ hf) ht

end Verif

namespace Verif.Ex
open Verif

/-- A time: every float stands for 100 ms. -/
def ms100 : Nat → Int := fun _ => 100

/-- Two processes log plain records, one of which has arrived; the process with the server logs one itself. -/
def twoAll : List LogAllEv := [.hdl (.tick 50), .net (.at 0 (.handle logged)), .net (.at 1 (.handle loggedInfo)), .hdl (.emit recA)] ++
  (List.replicate 4 (.net (.at 0 .go)) ++ [.net (.deliver 0), .net .serve, .hdl (.tick 300), .hdl .poll, .hdl .poll, .hdl .poll])

theorem twoAll_net : logNetEvs twoAll = [.at 0 (.handle logged), .at 1 (.handle loggedInfo), .at 0 .go, .at 0 .go, .at 0 .go, .at 0 .go, .deliver 0, .serve] := rfl

theorem twoAll_handled {i : Nat} {r : Fields} (hr : r ∈ handledOf (inProc i (logNetEvs twoAll))) : r = logged ∨ r = loggedInfo := by
  rw [twoAll_net] at hr
  simp only [handledOf, inProc, List.filterMap_filterMap, List.mem_filterMap] at hr
  obtain ⟨x, hx, h⟩ := hr
  simp only [List.mem_cons, List.not_mem_nil, or_false] at hx
  rcases hx with rfl | rfl | rfl | rfl | rfl | rfl | rfl | rfl <;> (dsimp only at h; try split at h) <;> simp_all

theorem twoAll_calm : ∀ i, Calm (inProc i (logNetEvs twoAll)) := by
  intro i e he
  rw [twoAll_net] at he
  simp only [inProc, List.mem_filterMap] at he
  obtain ⟨x, hx, h⟩ := he
  simp only [List.mem_cons, List.not_mem_nil, or_false] at hx
  rcases hx with rfl | rfl | rfl | rfl | rfl | rfl | rfl | rfl <;> (dsimp only at h; try split at h) <;> first | (cases h; trivial) | cases h

theorem twoAll_plain : ∀ i, ∀ r ∈ handledOf (inProc i (logNetEvs twoAll)), PlainRecord fmtS r ∧ Levelled r := by
  intro i r hr
  rcases twoAll_handled hr with rfl | rfl
  · exact ⟨logged_plain, by simp [Dict.WF, logged], .inl ⟨30, rfl⟩⟩
  · exact ⟨loggedInfo_plain, by simp [Dict.WF, loggedInfo], .inl ⟨20, rfl⟩⟩

example := C143_once lib fmtS (fun _ _ => false) (logEnv false) ms100 (fun _ => childNames) [] true [20] 0 twoAll
example := C143_passed lib fmtS (fun _ _ => false) (logEnv false) ms100 (fun _ => childNames) [] true [20] 0 twoAll (fun i r hr => (twoAll_plain i r hr).2)
example := C143_all lib fmtS (fun _ _ => false) (logEnv false) ms100 (fun _ => childNames) [] true [20] 0 twoAll twoAll_calm twoAll_plain
  (.inr ⟨by intro l; simp [twoAll], by
    intro i r hr
    rcases twoAll_handled hr with rfl | rfl
    · exact ⟨30, rfl, by decide⟩
    · exact ⟨20, rfl, by decide⟩⟩)
  (by simp [twoAll]) (by simp [twoAll])
/-- Up to here, the record that arrived and the one of the process with the server: one is written, the handler holds the other. -/
example : (hdlOuts ((LogAll.init (fun _ => childNames) [] true [20] 0).run lib fmtS (fun _ _ => false) (logEnv false) ms100 twoAll).2).length = 1 ∧
    ((LogAll.init (fun _ => childNames) [] true [20] 0).run lib fmtS (fun _ _ => false) (logEnv false) ms100 twoAll).1.hdl.pending.length = 1 := by decide +kernel

/-- What the handler sees of this. -/
theorem twoAll_sees : handlerSees lib fmtS (fun _ _ => false) (logEnv false) ms100 (LogAll.init (fun _ => childNames) [] true [20] 0) twoAll =
    [.tick 50, .emit recA, .emit { uid := 0, created := 100, level := 30, thread := 7, processName := some "child", threadName := some "worker" }, .tick 300, .poll, .poll, .poll] := by
  decide +kernel
example := C143_order lib fmtS (fun _ _ => false) (logEnv false) ms100 (fun _ => childNames) [] true [20] 0 twoAll (by simp [twoAll])
  (by rw [twoAll_sees]; simp [InTime, recA])
example : ∃ d, Arrived fmtS childNames logged d ∧ ∀ (E : LogEnv) k, (E.headerKey (recordSeen ms100 k d)).2 = ("child", "worker") := by
  obtain ⟨_, d, _, _, h⟩ := C75_record lib fmtS childNames logged logged_plain
  exact ⟨d, h, fun E k => (C143_label fmtS childNames logged d h E ms100 k "child" "worker" 7 30 rfl rfl rfl rfl).1⟩

end Verif.Ex
