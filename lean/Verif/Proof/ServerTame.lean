import Verif.Proof.Server
import Verif.Proof.SerializerTotal
/-! # Tame messages never stop the server -/
namespace Verif

theorem packableL_strs (L : Lib) (tys : List Ty) : ∀ l : List String, PackableL L tys (l.map .str)
  | [] => trivial
  | _ :: l => ⟨trivial, packableL_strs L tys l⟩
theorem jpackableL_strs (L : Lib) (tys : List Ty) : ∀ l : List String, JPackableL L tys (l.map .str)
  | [] => trivial
  | _ :: l => ⟨trivial, jpackableL_strs L tys l⟩
theorem depthL_strs : ∀ l : List String, depthL (l.map .str) ≤ 1
  | [] => by simp [depthL]
  | s :: l => by have := depthL_strs l; simp [depthL, Val.depth]; omega
theorem jdepthL_strs : ∀ l : List String, jdepthL (l.map .str) ≤ 1
  | [] => by simp [jdepthL]
  | s :: l => by have := jdepthL_strs l; simp [jdepthL, Val.jdepth]; omega

/-- an error reply can always be serialized -/
theorem errorReply_dumps {E : SendEnv} (hL : E.lib.Laws) (hty : ∀ ty ∈ defaultTypes, ty ∈ E.tys)
    (hs : E.server ≠ none) (ser : Ser) (t : Refs) (k : Int) (nm : String) (tb : List String) :
    ∃ t' w, ser.dumps E t (replyDict k .none (.tuple [.str nm, .list (tb.map .str)])) = (t', .ok w) := by
  cases ser with
  | msgpack =>
    simp only [Ser.dumps, msgpackDumps, msgpackDepth]
    refine (packT hL hty 512 t _ ?_ ?_).1 (Or.inl hs)
    · simp [replyDict, Packable, PackableD, PackableL, keyOk, packableL_strs]
    · have := depthL_strs tb
      simp only [replyDict, Val.depth, depthD, depthL]
      split <;> omega
  | json =>
    simp only [Ser.dumps, jsonDumps, jsonDepth]
    refine (jpackT hL hty 1000 t _ ?_ ?_).1 (Or.inl hs)
    · simp [replyDict, JPackable, JPackableD, JPackableL, jkey, Val.core, jpackableL_strs]
    · have := jdepthL_strs tb
      simp only [replyDict, Val.jdepth, jdepthD, jdepthL]
      omega

/-- the server can answer `c` -/
def CanAnswer (u : Bytes → Option String) (s : Srv) (c : Bytes) : Prop :=
  u c ≠ none ∧ (s.clients.get? c).bind serOf ≠ none

theorem sendError_ok {H : Heap} {s : Srv} {c k e} (hL : H.lib.Laws) (hty : ∀ ty ∈ defaultTypes, ty ∈ s.tys)
    (hb : H.tbBad = false) (ho : s.sockOpen = true) (hc : CanAnswer H.utf8 s c) :
    ∃ s' o, s.sendError H c k e = (s', .ok o) := by
  obtain ⟨h1, h2⟩ := hc
  obtain ⟨cs, h1⟩ := Option.ne_none_iff_exists'.1 h1
  obtain ⟨ser, h2⟩ := Option.ne_none_iff_exists'.1 h2
  obtain ⟨t', w, hd⟩ := errorReply_dumps (E := s.sendEnv H) hL hty (by simp [Srv.sendEnv]) ser s.refs k e.name (H.transcript c k)
  unfold Srv.sendError Srv.sendResult
  simp [h1, h2, hb, hd, ho]

theorem respond_ok {H : Heap} {s : Srv} {c k} (rt r) (hL : H.lib.Laws) (hty : ∀ ty ∈ defaultTypes, ty ∈ s.tys)
    (hb : H.tbBad = false) (ho : s.sockOpen = true) (hc : 0 ≤ k → CanAnswer H.utf8 s c) :
    (s.respond H c k rt r).2.2 = none := by
  unfold Srv.respond
  split
  · rename_i hk
    have hc := hc hk
    cases r with
    | ok v =>
      simp only
      obtain ⟨t1, h1⟩ := convert_state H s rt v
      generalize s.convert H rt v = cv at h1 ⊢
      obtain ⟨s1, v1⟩ := cv
      simp only at h1; subst h1
      simp only
      obtain ⟨t2, h2⟩ := sendResult_state H { s with refs := t1 } c k v1 .none false
      generalize Srv.sendResult H { s with refs := t1 } c k v1 .none = sr at h2 ⊢
      obtain ⟨s2, r2⟩ := sr
      simp only at h2; subst h2
      cases r2 with
      | ok o => rfl
      | error e =>
        simp only
        obtain ⟨s3, o3, h3⟩ := sendError_ok (H := H) (s := { s with refs := t2 }) (c := c) (k := k) (e := e) hL hty hb ho hc
        rw [h3]
    | error e =>
      obtain ⟨s3, o3, h3⟩ := sendError_ok (H := H) (s := s) (c := c) (k := k) (e := e) hL hty hb ho hc
      simp only [h3]
  · cases r <;> rfl

theorem finish_ok {H : Heap} {s : Srv} {c k} (rt cl r) (hL : H.lib.Laws) (hty : ∀ ty ∈ defaultTypes, ty ∈ s.tys)
    (hb : H.tbBad = false) (ho : s.sockOpen = true) (hc : 0 ≤ k → CanAnswer H.utf8 s c) :
    (∃ t, (s.finish H c k rt cl r).1 = { s with refs := t, sockOpen := !cl }) ∧
    ∀ x ∈ (s.finish H c k rt cl r).2, x.failure = false := by
  have h := respond_ok (H := H) (s := s) (c := c) (k := k) rt r hL hty hb ho hc
  have h2 := finish_outs (H := H) (s := s) c k rt cl r hL (hty _ (by simp [defaultTypes]))
  obtain ⟨t, ht⟩ := respond_state H s c k rt r
  unfold Srv.finish at h2 ⊢
  generalize s.respond H c k rt r = x at h h2 ht ⊢
  obtain ⟨s1, o, x⟩ := x
  simp only at h ht; subst h ht
  simp only at h2 ⊢
  constructor
  · cases cl
    · exact ⟨t, by simp [ho]⟩
    · exact ⟨t, by simp⟩
  · rcases h2 with ⟨e, h2⟩ | ⟨_, ser, w, h2, _⟩ | ⟨_, h2 | ⟨e, h2⟩⟩
    · exfalso
      have := congrArg List.getLast? h2
      simp at this
    · rw [h2]; simp [Out.failure]
    · rw [h2]; simp [Out.failure]
    · rw [h2]; simp [Out.failure]

/-- the server is healthy: it serves, and it can answer everyone it is working for -/
structure Healthy (u : Bytes → Option String) (s : Srv) : Prop where
  types : ∀ ty ∈ defaultTypes, ty ∈ s.tys
  alive : s.dead = false
  isOpen : s.closed = false
  sock : s.sockOpen = true
  sers : ∀ c st, s.clients.get? c = some st → serOf st ≠ none
  frames : ∀ f ∈ s.stack, CanAnswer u s f.caller

theorem canAnswer_set {u : Bytes → Option String} {s : Srv} {c c' : Bytes} {st : String} (hs : serOf st ≠ none)
    (h : CanAnswer u s c) : CanAnswer u { s with clients := s.clients.set c' st } c := by
  refine ⟨h.1, ?_⟩
  simp only [Dict.get?_set]
  split
  · simpa using hs
  · exact h.2

theorem step_tame {L : Lib} {u : Bytes → Option String} (hL : L.Laws) {s : Srv} {e : Ev} (hh : Healthy u s)
    (ht : TameEv L u e) : Healthy u (s.step e).1 ∧ ∀ x ∈ (s.step e).2, x.failure = false := by
  have hlib := ht.lib
  have hutf := ht.utf8
  have htext := ht.text
  cases e with
  | recv H parts =>
    simp only [Ev.heap] at hlib hutf htext
    obtain ⟨⟨c, m, hr, hser, hu⟩, hnc⟩ := ht.msg H parts rfl
    have hnc' : m.action ≠ "close" := fun h => hnc ⟨c, m, hr, h⟩
    simp only [Srv.step, hh.isOpen, hh.alive, hh.sock, Bool.or_self, Bool.false_eq_true, Bool.true_eq_false, if_false, hr]
    have hans : ∀ f, (f = c ∨ CanAnswer u s f) → CanAnswer u { s with clients := s.clients.set c m.serType } f := by
      rintro f (rfl | h)
      · exact ⟨by rw [← hutf]; exact hu, by simpa using hser⟩
      · exact canAnswer_set hser h
    have hsers : ∀ c' st, (s.clients.set c m.serType).get? c' = some st → serOf st ≠ none := by
      intro c' st h
      rw [Dict.get?_set] at h
      split at h
      · simp only [Option.some.injEq] at h; rw [← h]; exact hser
      · exact hh.sers c' st h
    rcases process_cases H s c m with ⟨s1, o, r, t, n, b1, b2, h, h1, h2, h3⟩ | ⟨o, task, h, h1, h2, _⟩
    · obtain ⟨hb1, hb2, ho⟩ := h2 hnc'
      rw [h]
      subst ho hb1 hb2
      have hcl : decide (m.action = "close") = false := by simp [hnc']
      rw [hcl]
      obtain ⟨⟨t', ht'⟩, hf⟩ := finish_ok (H := H) (s := s1) (c := c) (k := m.reqId) m.returnType false r (by rw [hlib]; exact hL)
        (by rw [h1]; exact hh.types) htext (by rw [h1]; exact hh.sock)
        (fun _ => by rw [h1, hutf]; exact hans c (Or.inl rfl))
      constructor
      · rw [ht', h1]
        exact ⟨hh.types, hh.alive, hh.isOpen, rfl, hsers, fun f hf => hans f.caller (Or.inr (hh.frames f hf))⟩
      · intro x hx
        simp only [List.nil_append, List.mem_cons] at hx
        rcases hx with rfl | hx
        · rfl
        · exact hf x hx
    · rw [h]
      constructor
      · refine ⟨hh.types, hh.alive, hh.isOpen, hh.sock, hsers, ?_⟩
        intro f hf
        simp only [List.mem_cons] at hf
        rcases hf with rfl | hf
        · exact hans c (Or.inl rfl)
        · exact hans f.caller (Or.inr (hh.frames f hf))
      · intro x hx
        simp only [List.mem_cons] at hx
        rcases hx with rfl | hx
        · rfl
        · have := h1 x hx
          cases x <;> simp_all [Out.neutral, Out.failure]
  | ret H r =>
    simp only [Ev.heap] at hlib hutf htext
    simp only [Srv.step]
    split
    · exact ⟨hh, by simp⟩
    · rename_i f st hst
      have hca : CanAnswer u s f.caller := hh.frames f (by simp [hst])
      obtain ⟨⟨t', ht'⟩, hf⟩ := finish_ok (H := H) (s := { s with stack := st }) (c := f.caller) (k := f.reqId) f.returnType false
        (f.task.result H r) (by rw [hlib]; exact hL) hh.types htext hh.sock (fun _ => by rw [hutf]; exact hca)
      refine ⟨?_, hf⟩
      rw [ht']
      exact ⟨hh.types, hh.alive, hh.isOpen, rfl, hh.sers, fun f' hf' => hh.frames f' (by simp [hst, hf'])⟩
  | publish H name v =>
    simp only [Srv.step]
    split
    · exact ⟨⟨hh.types, hh.alive, hh.isOpen, hh.sock, hh.sers, hh.frames⟩, by simp⟩
    · exact ⟨hh, by simp⟩
  | mkProxy H v kw => exact ⟨⟨hh.types, hh.alive, hh.isOpen, hh.sock, hh.sers, hh.frames⟩, by simp [Srv.step]⟩

theorem run_tame {L : Lib} {u : Bytes → Option String} (hL : L.Laws) : ∀ (es : List Ev) (s : Srv), Healthy u s →
    (∀ e ∈ es, TameEv L u e) → Healthy u (s.run es).1 ∧ ∀ x ∈ (s.run es).2, x.failure = false
  | [], s, hh, _ => ⟨hh, by simp [Srv.run]⟩
  | e :: es, s, hh, ht => by
    obtain ⟨h1, h2⟩ := step_tame hL hh (ht e (by simp))
    obtain ⟨h3, h4⟩ := run_tame hL es (s.step e).1 h1 (fun e he => ht e (by simp [he]))
    simp only [Srv.run]
    refine ⟨h3, ?_⟩
    intro x hx
    simp only [List.mem_append] at hx
    rcases hx with hx | hx
    · exact h2 x hx
    · exact h4 x hx

end Verif
