import Verif.Proof.ServerNames
import Verif.Props.ServerExample
/-!
# Properties C07–C16: the server

`Srv.run` starts in any state; runs of a server are `(Srv.init addr tys self).run es`, for every sequence of
events `es`: messages with arbitrary parts, user code ending with arbitrary results, and actions of the server's
own process. `openReqs` are the requests whose user code is still running.
-/
namespace Verif
open Ex (lib laws heap srv msg self)

theorem openReqs_init (addr tys self) : (Srv.init addr tys self).openReqs = [] := rfl

/-- the number of requests `k` of `c` still being processed -/
def Srv.countOpen (s : Srv) (c : Bytes) (k : Int) : Nat := s.stack.countP fun f => decide (f.caller = c) && decide (f.reqId = k)

theorem openCount_openReqs (s : Srv) (c k) : openCount c k s.openReqs = s.countOpen c k := by
  simp only [openCount, Srv.openReqs, Srv.countOpen, List.countP_map]; rfl

theorem repliedCount_openReqs (s : Srv) (c k) : repliedCount c k s.openReqs = 0 := by
  simp [repliedCount, Srv.openReqs, List.countP_map, Function.comp_def]

/-! ## C07 -/

/-- **C07.** In every run of a server, for every caller and request id: there are as many replies as requests whose
processing ended normally (for ids ≥ 0); none for negative ids (sync 'off'); and every request read has ended
normally, has ended by an exception, or is still being processed. -/
theorem C07_one_reply_each {L : Lib} (hL : L.Laws) (addr : String) (tys : List Ty) (self : Val) (hty : Ty.int ∈ effTypes tys)
    (es : List Ev) (hes : ∀ e ∈ es, e.heap.lib = L) (c : Bytes) (k : Int) :
    let s := (Srv.init addr tys self).run es
    (0 ≤ k → countReplies L c k s.2 = countDone c k s.2) ∧ (k < 0 → countReplies L c k s.2 = 0) ∧
    countAccepted c k s.2 = countDone c k s.2 + countRaised c k s.2 + s.1.countOpen c k := by
  have h := run_proto hL es (Srv.init addr tys self) hes hty
  have hc := proto_counts c k h
  rw [openReqs_init] at hc
  simp only [openCount_openReqs, repliedCount_openReqs] at hc
  simp only [openCount, repliedCount, List.countP_nil] at hc
  refine ⟨fun hk => ?_, hc.2.2, by omega⟩
  have := hc.2.1
  simp only [hk, if_true] at this
  omega

theorem proto_prefix {L : Lib} {a b : List Out} {st st'} (h : proto L st (a ++ b) = some st') : ∃ st1, proto L st a = some st1 ∧ proto L st1 b = some st' := by
  rw [proto_append] at h
  cases h1 : proto L st a with
  | none => rw [h1] at h; simp at h
  | some st1 => rw [h1] at h; exact ⟨st1, rfl, h⟩

/-- **C07.** Nothing is unsolicited: every message a server sends is a disconnect message or the reply to a
non-negative request of the very client it goes to; this request was read before, and there were fewer replies to it
before. -/
theorem C07_nothing_unsolicited {L : Lib} (hL : L.Laws) (addr : String) (tys : List Ty) (self : Val) (hty : Ty.int ∈ effTypes tys)
    (es : List Ev) (hes : ∀ e ∈ es, e.heap.lib = L) {a b : List Out} {c : Bytes} {ser : Ser} {w : Wire}
    (ho : ((Srv.init addr tys self).run es).2 = a ++ .send c ser w :: b) :
    (replyId L ser w = none ∧ isDisconnect w = true) ∨
    ∃ k, replyId L ser w = some k ∧ 0 ≤ k ∧ countReplies L c k a < countAccepted c k a := by
  have h := run_proto hL es (Srv.init addr tys self) hes hty
  rw [ho] at h
  obtain ⟨st1, h1, h2⟩ := proto_prefix h
  simp only [proto] at h2
  split at h2
  · rename_i st2 hs
    simp only [protoStep] at hs
    split at hs
    · rename_i k hk
      right
      refine ⟨k, hk, ?_⟩
      split at hs
      · simp at hs
      · rename_i o r
        split at hs
        · rename_i hc
          obtain ⟨hc1, hc2, hc3, hc4⟩ := hc
          refine ⟨hc3, ?_⟩
          have hcnt := proto_counts c k h1
          rw [openReqs_init] at hcnt
          have hop : repliedCount c k (o :: r) < openCount c k (o :: r) := by
            simp only [repliedCount, openCount, List.countP_cons, hc1, hc2, hc4]
            simp only [decide_true, Bool.and_false, Bool.false_eq_true, if_false, Bool.and_self, if_true]
            have : List.countP (fun o => decide (o.caller = c) && decide (o.id = k) && o.replied) r ≤
                List.countP (fun o => decide (o.caller = c) && decide (o.id = k)) r :=
              List.countP_mono_left (fun x _ h => by simp_all)
            omega
          have := hcnt.1
          have := hcnt.2.1
          simp only [hc3, if_true] at this
          simp only [openCount, repliedCount, List.countP_nil] at *
          omega
        · simp at hs
    · rename_i hk
      left
      split at hs
      · rename_i hd; exact ⟨hk, hd⟩
      · simp at hs
  · simp at h2

/-- three messages: a call, a nested `ping` read while it runs, a `get_item` with sync 'off'; then the call ends -/
def exRun : List Ev := [msg 65 [1] 13 20 30 [3], msg 66 [1] 14 20 31 [], msg 66 [0, 1] 10 20 31 [1], .ret heap (.ok (.int 7))]
example : (∀ e ∈ exRun, e.heap.lib = lib) ∧ Ty.int ∈ effTypes [] := ⟨by simp [exRun, msg, Ev.heap, heap], by decide⟩
/-- both requests with id 1 are answered, the one with id -1 is not -/
example : countReplies lib [65] 1 (srv.run exRun).2 = 1 ∧ countReplies lib [66] 1 (srv.run exRun).2 = 1 ∧
    countReplies lib [66] (-1) (srv.run exRun).2 = 0 ∧ countAccepted [66] (-1) (srv.run exRun).2 = 1 := by
  decide +kernel

/-! ## C08 -/

/-- A sequence of observations in which every request that starts also ends, properly nested. -/
inductive Balanced : List Out → Prop where
  | nil : Balanced []
  | other {o os} : (∀ c k a st, o ≠ .accept c k a st) → (∀ c k x, o ≠ .done c k x) → Balanced os → Balanced (o :: os)
  | nest {c k a st b c' k' x os} : Balanced b → Balanced os → Balanced (.accept c k a st :: (b ++ .done c' k' x :: os))

/-- the requests of an automaton state -/
def reqKeys (st : List OpenReq) : List (Bytes × Int) := st.map fun o => (o.caller, o.id)

theorem protoStep_done {L st c k x st'} (h : protoStep L st (.done c k x) = some st') : reqKeys st = (c, k) :: reqKeys st' := by
  simp only [protoStep] at h
  split at h
  · simp at h
  · split at h
    · rename_i hc; simp only [Option.some.injEq] at h; subst h; simp [reqKeys, hc.1, hc.2.1]
    · simp at h

theorem proto_cons {L st o os st'} (h : proto L st (o :: os) = some st') : ∃ st1, protoStep L st o = some st1 ∧ proto L st1 os = some st' := by
  simp only [proto] at h
  split at h
  · rename_i st1 hs; exact ⟨st1, hs, h⟩
  · simp at h

theorem balanced_keys {L : Lib} : ∀ {os}, Balanced os → ∀ {st st'}, proto L st os = some st' → reqKeys st' = reqKeys st := by
  intro os hb
  induction hb with
  | nil => intro st st' h; simp only [proto, Option.some.injEq] at h; rw [h]
  | @other o os h1 h2 _ ih =>
    intro st st' h
    obtain ⟨st1, hs, h⟩ := proto_cons h
    rw [ih h]
    cases o with
    | accept c k a s => exact absurd rfl (h1 c k a s)
    | done c k x => exact absurd rfl (h2 c k x)
    | send c ser w =>
      simp only [protoStep] at hs
      split at hs
      · split at hs
        · simp at hs
        · split at hs
          · simp only [Option.some.injEq] at hs; subst hs; simp [reqKeys]
          · simp at hs
      · split at hs
        · simp only [Option.some.injEq] at hs; rw [hs]
        · simp at hs
    | invoke a b c => simp only [protoStep, Option.some.injEq] at hs; rw [hs]
    | importing a b => simp only [protoStep, Option.some.injEq] at hs; rw [hs]
    | hook a => simp only [protoStep, Option.some.injEq] at hs; rw [hs]
    | badRead a => simp only [protoStep, Option.some.injEq] at hs; rw [hs]
  | @nest c k a s b c' k' x os _ _ ih1 ih2 =>
    intro st st' h
    obtain ⟨st1, hs, h⟩ := proto_cons h
    obtain ⟨st2, h3, h4⟩ := proto_prefix h
    obtain ⟨st3, h5, h6⟩ := proto_cons h4
    simp only [protoStep, Option.some.injEq] at hs; subst hs
    rw [ih2 h6]
    have := ih1 h3
    rw [protoStep_done h5] at this
    simp only [reqKeys, List.map_cons, List.cons.injEq] at this
    exact this.2

/-- **C08.** Requests end innermost first: if after reading request `(c, k)` every request read later has ended
(properly nested), the next request to end is `(c, k)`; and any reply sent at that point is the reply to `(c, k)`, so
the replies of requests read later were sent before. -/
theorem C08_innermost_first {L : Lib} (hL : L.Laws) (addr : String) (tys : List Ty) (self : Val) (hty : Ty.int ∈ effTypes tys)
    (es : List Ev) (hes : ∀ e ∈ es, e.heap.lib = L) {a b d : List Out} {c : Bytes} {k : Int} {act st : String} {o : Out}
    (hb : Balanced b) (ho : ((Srv.init addr tys self).run es).2 = a ++ .accept c k act st :: (b ++ o :: d)) :
    (∀ c' k' x, o = .done c' k' x → c' = c ∧ k' = k) ∧
    (∀ c' ser w k', o = .send c' ser w → replyId L ser w = some k' → c' = c ∧ k' = k) := by
  have h := run_proto hL es (Srv.init addr tys self) hes hty
  rw [ho] at h
  obtain ⟨st1, _, h2⟩ := proto_prefix h
  obtain ⟨st2, h3, h4⟩ := proto_cons h2
  obtain ⟨st3, h5, h6⟩ := proto_prefix h4
  obtain ⟨st4, h7, _⟩ := proto_cons h6
  have hk := balanced_keys hb h5
  simp only [protoStep, Option.some.injEq] at h3
  subst h3
  constructor
  · rintro c' k' x rfl
    rw [protoStep_done h7] at hk
    simp only [reqKeys, List.map_cons, List.cons.injEq, Prod.mk.injEq] at hk
    exact hk.1
  · rintro c' ser w k' rfl hr
    simp only [protoStep, hr] at h7
    split at h7
    · simp at h7
    · split at h7
      · rename_i hc
        simp only [reqKeys, List.map_cons, List.cons.injEq, Prod.mk.injEq] at hk
        exact ⟨hc.1.symm.trans hk.1.1, hc.2.1.symm.trans hk.1.2⟩
      · simp at h7

/-- a call by A; a `ping` by B with sync 'off', read while it runs; the call ends -/
def exNested : List Ev := [msg 65 [1] 13 20 30 [3], msg 66 [0, 1] 14 20 31 [], .ret heap (.ok (.int 7))]
example : (srv.run exNested).2 = [] ++ .accept [65] 1 "call_obj" "msgpack" ::
    ([.invoke (.int 5) (.list [.int 1]) (.dict []), .accept [66] (-1) "ping" "json", .done [66] (-1) none] ++
      .send [65] .msgpack (.map [(.str "action", .str "return"), (.str "req_id", .int 1), (.str "rval", .int 7), (.str "error", .nil)]) ::
        [.done [65] 1 none]) := rfl
example : Balanced [.invoke (.int 5) (.list [.int 1]) (.dict []), .accept [66] (-1) "ping" "json", .done [66] (-1) none] :=
  .other (by simp) (by simp) (.nest (b := []) .nil .nil)

open Ex

/-! ## The theorems on these cases -/

example (c : Bytes) (k : Int) := C07_one_reply_each laws "tcp://a:1" [] self (by decide) exRun (by simp [exRun, msg, Ev.heap, heap]) c k
example := C07_nothing_unsolicited laws "tcp://a:1" [] self (by decide) exNested (by simp [exNested, msg, Ev.heap, heap])
  (a := [.accept [65] 1 "call_obj" "msgpack", .invoke (.int 5) (.list [.int 1]) (.dict []), .accept [66] (-1) "ping" "json", .done [66] (-1) none])
  (c := [65]) (ser := .msgpack) (w := .map [(.str "action", .str "return"), (.str "req_id", .int 1), (.str "rval", .int 7), (.str "error", .nil)])
  (b := [.done [65] 1 none]) rfl
example := C08_innermost_first laws "tcp://a:1" [] self (by decide) exNested (by simp [exNested, msg, Ev.heap, heap])
  (a := []) (c := [65]) (k := 1) (act := "call_obj") (st := "msgpack") (d := [.done [65] 1 none])
  (o := .send [65] .msgpack (.map [(.str "action", .str "return"), (.str "req_id", .int 1), (.str "rval", .int 7), (.str "error", .nil)]))
  (b := [.invoke (.int 5) (.list [.int 1]) (.dict []), .accept [66] (-1) "ping" "json", .done [66] (-1) none])
  (.other (by simp) (by simp) (.nest (b := []) .nil .nil)) rfl

end Verif
