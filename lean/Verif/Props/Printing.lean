import Verif.Model.Printing
import Verif.Props.ProxyMore
import Verif.Props.ClientExample
/-!
# Reading a message should concern this message only (C111)

`process_msg` prints each message for its log call before it looks at it.
-/
namespace Verif

/-- **C111, partial.** If `default_proxy_options` of the client leaves `safe_print` on, printing asks nobody, and `process_msg` does with every message what it says (`Cli.processMsg`, about which
C27–C29 and all later properties are). Missing: this is false for clients with `safe_print` off (`C111_fails`). -/
theorem C111_silent_partial {dflt : Dict String Val} (hw : dflt.WF) (h : dflt.get? "safe_print" = none ∨ dflt.get? "safe_print" = some (.bool true)) (K : Codec) (P : CliEnv)
    (n : ProxyReq → Asking) (c : Cli) (msg : Val) : c.processPrinted K P dflt n msg = c.processMsg P msg := by
  have h1 : ∀ x, printAsks dflt x = [] := by
    intro x
    unfold printAsks
    obtain ⟨a1, a2, a3⟩ := C103_received x dflt hw
    by_cases hs : dflt.has "self" = true
    · rw [a1 hs]
    · have hs : dflt.has "self" = false := by simpa using hs
      by_cases hk : ∀ k ∈ dflt.map (·.1), k ∈ ["sync", "timeout", "return_type", "defer_getattr", "no_proxy_types", "auto_delete", "safe_print"]
      · obtain ⟨q, e1, e2, e3⟩ := a2 hs hk
        rw [e1]
        have hon : q.on "safe_print" = true := by
          unfold PObj.on
          rw [e3]
          rcases h with h | h <;> rw [h] <;> rfl
        simp only
        rw [(C102_safe q hon).1]
      · have : ∃ k ∈ dflt.map (·.1), k ∉ ["sync", "timeout", "return_type", "defer_getattr", "no_proxy_types", "auto_delete", "safe_print"] :=
          Classical.byContradiction fun hc => hk fun k hk' => Classical.byContradiction fun hn => hc ⟨k, hk', hn⟩
        rw [a3 hs this]
  have h2 : msg.printAsks dflt = [] := by
    unfold Val.printAsks
    rw [List.flatMap_eq_nil_iff]
    exact fun x _ => h1 x
  unfold Cli.processPrinted
  split
  · rw [h2]; rfl
  · rename_i hd
    unfold Cli.processMsg
    split
    · exact absurd rfl (hd _)
    · rfl

/-- **C111** (requests) With `safe_print` off, the server is asked, for each proxy in the message and in the order of printing, for the `__repr__` of its object. -/
theorem C111_asks {dflt : Dict String Val} (hw : dflt.WF) (hs : dflt.has "self" = false)
    (hk : ∀ k ∈ dflt.map (·.1), k ∈ ["sync", "timeout", "return_type", "defer_getattr", "no_proxy_types", "auto_delete", "safe_print"])
    {v : Val} (h : dflt.get? "safe_print" = some v) (hv : v ≠ .bool true) (msg : Val) :
    (msg.printAsks dflt).map (·.req) = msg.printed.map fun x =>
      ("call_obj", some (.dict [(.str "obj", .proxy { x with attrs := x.attrs ++ ["__repr__"] }), (.str "args", .tuple []), (.str "kwargs", .dict [])])) := by
  unfold Val.printAsks
  induction msg.printed with
  | nil => rfl
  | cons x xs ih =>
    rw [List.flatMap_cons, List.map_append, ih, List.map_cons]
    obtain ⟨q, e1, e2, e3⟩ := (C103_received x dflt hw).2.1 hs hk
    have hon : q.on "safe_print" = false := by
      unfold PObj.on
      rw [e3, h]
      cases v <;> try rfl
      rename_i b
      cases b
      · rfl
      · exact absurd rfl hv
    obtain ⟨r, e4, e5⟩ := (C102_asks_partial (.received e1) hon).1
    unfold printAsks
    rw [e1]
    simp only
    rw [e4]
    simp [e5.1, e2]

/-- **C111** (loss) If one of these requests raises, so does reading the message, which is used up; beyond what was done for the requests up to this one nothing happens to the client. -/
theorem C111_lost {K : Codec} {P : CliEnv} {dflt : Dict String Val} {n : ProxyReq → Asking} {c c' : Cli} {d : List (Val × Val)} {done rest : List ProxyReq} {r : ProxyReq} {e : Exc}
    (h1 : (Val.dict d).printAsks dflt = done ++ r :: rest) (h2 : ∀ q ∈ done, (n q).outcome = .ok ()) (h3 : (n r).outcome = .error e)
    (h : c' = (c.run K ((done ++ [r]).flatMap fun q => (n q).evs)).1) : c.processPrinted K P dflt n (.dict d) = (c', .error e) := by
  have key : ∀ (done : List ProxyReq) (c : Cli), (∀ q ∈ done, (n q).outcome = .ok ()) →
      c.printMsg K n (done ++ r :: rest) = ((c.run K ((done ++ [r]).flatMap fun q => (n q).evs)).1, .error e) := by
    intro done
    induction done with
    | nil => intro c _; simp [Cli.printMsg, h3]
    | cons q qs ih =>
      intro c hq
      rw [List.cons_append, Cli.printMsg, hq q List.mem_cons_self]
      simp only
      rw [ih _ fun q hh => hq q (List.mem_cons_of_mem _ hh)]
      simp only [List.cons_append, List.flatMap_cons]
      rw [run_append_cli]
  unfold Cli.processPrinted
  simp only
  rw [h1, key done c h2, h]

/-- Where a proxy is found in a message: in lists, tuples, and the keys and values of dictionaries. -/
inductive Shows (x : Proxy) : Val → Prop where
  | here : Shows x (.proxy x)
  | list (l : List Val) (v : Val) : v ∈ l → Shows x v → Shows x (.list l)
  | tuple (l : List Val) (v : Val) : v ∈ l → Shows x v → Shows x (.tuple l)
  | key (d : List (Val × Val)) (k v : Val) : (k, v) ∈ d → Shows x k → Shows x (.dict d)
  | value (d : List (Val × Val)) (k v : Val) : (k, v) ∈ d → Shows x v → Shows x (.dict d)

theorem printedL_mem (x : Proxy) : ∀ (l : List Val) (v : Val), v ∈ l → x ∈ v.printed → x ∈ printedL l
  | [], _, h, _ => by cases h
  | a :: l, v, h, hx => by
    simp only [printedL, List.mem_append]
    rcases List.mem_cons.1 h with rfl | h
    · exact .inl hx
    · exact .inr (printedL_mem x l v h hx)

theorem printedD_mem (x : Proxy) : ∀ (d : List (Val × Val)) (k v : Val), (k, v) ∈ d → x ∈ k.printed ∨ x ∈ v.printed → x ∈ printedD d
  | [], _, _, h, _ => by cases h
  | (a, b) :: d, k, v, h, hx => by
    simp only [printedD, List.mem_append]
    rcases List.mem_cons.1 h with h | h
    · cases h; rcases hx with hx | hx
      · exact .inl hx
      · exact .inr (.inl hx)
    · exact .inr (.inr (printedD_mem x d k v h hx))

/-- **C111** Printing a message asks for every proxy found in it, at any depth, as item, key or value. -/
theorem C111_where {x : Proxy} {msg : Val} (h : Shows x msg) : x ∈ msg.printed := by
  induction h with
  | here => simp [Val.printed]
  | list l v hv _ ih => exact printedL_mem x l v hv ih
  | tuple l v hv _ ih => exact printedL_mem x l v hv ih
  | key d k v hv _ ih => exact printedD_mem x d k v hv (.inl ih)
  | value d k v hv _ ih => exact printedD_mem x d k v hv (.inr ih)

mutual
/-- **C111** and for nothing else. -/
theorem C111_only {x : Proxy} : ∀ (msg : Val), x ∈ msg.printed → Shows x msg
  | .proxy p, h => by simp only [Val.printed, List.mem_singleton] at h; subst h; exact .here
  | .list l, h => by obtain ⟨v, hv, hs⟩ := shows_list l h; exact .list l v hv hs
  | .tuple l, h => by obtain ⟨v, hv, hs⟩ := shows_list l h; exact .tuple l v hv hs
  | .dict d, h => by
    obtain ⟨k, v, hv, hs | hs⟩ := shows_dict d h
    · exact .key d k v hv hs
    · exact .value d k v hv hs
  | .none, h | .bool _, h | .int _, h | .float _, h | .str _, h | .bytes _, h | .datetime _, h | .date _, h | .ndarray _, h | .npScalar _, h | .dtype _, h
  | .obj _ _, h | .sub _ _, h => by simp [Val.printed] at h
theorem shows_list {x : Proxy} : ∀ (l : List Val), x ∈ printedL l → ∃ v ∈ l, Shows x v
  | [], h => by simp [printedL] at h
  | v :: l, h => by
    simp only [printedL, List.mem_append] at h
    rcases h with h | h
    · exact ⟨v, by simp, C111_only v h⟩
    · obtain ⟨w, hw, hs⟩ := shows_list l h; exact ⟨w, by simp [hw], hs⟩
theorem shows_dict {x : Proxy} : ∀ (d : List (Val × Val)), x ∈ printedD d → ∃ k v, (k, v) ∈ d ∧ (Shows x k ∨ Shows x v)
  | [], h => by simp [printedD] at h
  | (k, v) :: d, h => by
    simp only [printedD, List.mem_append] at h
    rcases h with h | h | h
    · exact ⟨k, v, by simp, .inl (C111_only k h)⟩
    · exact ⟨k, v, by simp, .inr (C111_only v h)⟩
    · obtain ⟨k', v', hw, hs⟩ := shows_dict d h; exact ⟨k', v', by simp [hw], hs⟩
end

/-- **C111** The requests come in the order of the text: items from left to right, each key before its value. -/
theorem C111_in_order (dflt : Dict String Val) (a b : List Val) (c d : List (Val × Val)) (k v : Val) :
    (Val.list (a ++ b)).printAsks dflt = (Val.list a).printAsks dflt ++ (Val.list b).printAsks dflt ∧
    (Val.dict (c ++ (k, v) :: d)).printAsks dflt = (Val.dict c).printAsks dflt ++ (k.printAsks dflt ++ (v.printAsks dflt ++ (Val.dict d).printAsks dflt)) := by
  have h1 : ∀ a b, printedL (a ++ b) = printedL a ++ printedL b := by
    intro a b
    induction a with
    | nil => simp [printedL]
    | cons x a ih => simp [printedL, ih]
  have h2 : ∀ a b, printedD (a ++ b) = printedD a ++ printedD b := by
    intro a b
    induction a with
    | nil => simp [printedD]
    | cons x a ih => obtain ⟨p, q⟩ := x; simp [printedD, ih]
  simp [Val.printAsks, Val.printed, h1, h2, printedD]

namespace Ex

/-- A client that has asked for 'x' (request 0). -/
def asking : Cli := (cli.run codec [sendGet "async"]).1
/-- The answer: a proxy. -/
def answer0 : Val := replyDict 0 (.proxy ⟨"tcp://s:1", 3, 5, "type", []⟩) .none
def unsafeOpts : Dict String Val := [("safe_print", .bool false)]

/-- The request for the text, and the reply to it: the `__repr__` of the object raises. -/
def reprFails (r : ProxyReq) : Asking where
  evs := [.send csend Refs.init r.req.1 r.req.2 "value" "sync", .recv cenv (ret 1 .nil (.arr [.str "KeyError", .arr [.str "Traceback"]]))]
  outcome := .error (.other "RemoteCallException")

/-- **C111 fails** for a client with `safe_print` off: request 0 succeeded and its answer has been read, but reading it raises the exception of the object's `__repr__`, and the future of
request 0 is still pending, its only reply being used up. -/
theorem C111_fails : let r := asking.processPrinted codec cenv unsafeOpts reprFails answer0
    (match r.2 with | .error (.other "RemoteCallException") => true | _ => false) = true ∧ r.1.fut 0 = some .pending ∧
    r.1.fut 1 = some (.remote (.str "KeyError") (.list [.str "Traceback"])) ∧
    (asking.processMsg cenv answer0).1.fut 0 = some (.value (.proxy ⟨"tcp://s:1", 3, 5, "type", []⟩)) := ⟨by decide +kernel, rfl, rfl, rfl⟩

example : Shows ⟨"tcp://s:1", 3, 5, "type", []⟩ (.dict [(.str "rval", .tuple [.int 1, .dict [(.proxy ⟨"tcp://s:1", 3, 5, "type", []⟩, .none)]])]) :=
  .value _ (.str "rval") _ (.head _) (.tuple _ _ (.tail _ (.head _)) (.key _ _ .none (.head _) .here))

/-- C111: the hypotheses of the theorems can be met. -/
example : Dict.WF unsafeOpts ∧ Dict.has unsafeOpts "self" = false ∧ answer0.printed = [⟨"tcp://s:1", 3, 5, "type", []⟩] ∧ (answer0.printAsks unsafeOpts).length = 1 := by
  refine ⟨by simp [unsafeOpts, Dict.WF], rfl, rfl, rfl⟩
example : asking.processPrinted codec cenv [("sync", .str "async")] reprFails answer0 = asking.processMsg cenv answer0 :=
  C111_silent_partial (by simp [Dict.WF]) (.inl rfl) ..

end Ex

namespace Ex

/-! ## The theorems on these cases -/

example := C111_asks (dflt := unsafeOpts) (by simp [unsafeOpts, Dict.WF]) rfl (by simp [unsafeOpts]) (v := .bool false) rfl (by simp) answer0
/-- The entries of the answer. -/
def answerD : List (Val × Val) := match answer0 with | .dict d => d | _ => []
example := C111_lost (K := codec) (P := cenv) (dflt := unsafeOpts) (n := reprFails) (c := asking) (d := answerD) (done := []) (rest := []) (r := (answer0.printAsks unsafeOpts)[0]) rfl (by simp) rfl rfl

end Ex

end Verif
