import Verif.Proof.SystemClose
import Verif.Props.Server
import Verif.Proof.Registry
/-!
# A client that waits has at most one request running
-/
namespace Verif

section
variable {K : Codec} {L : Lib} {idOf : Obj → Nat} {addr : String} {tys : List Ty} {self : Val} {sers : Bytes → Ser}

/-- how the server's requests are counted in a run -/
theorem world_counts {es : List SEv} (W : World K L idOf (Srv.init addr tys self) sers es) (n : Bytes) (k : Int) :
    countAccepted n k ((Sys.init (Srv.init addr tys self) sers).outs K es) =
      countDone n k ((Sys.init (Srv.init addr tys self) sers).outs K es) + countRaised n k ((Sys.init (Srv.init addr tys self) sers).outs K es) +
      ((Sys.init (Srv.init addr tys self) sers).run K es).srv.countOpen n k := by
  have h := (C07_one_reply_each W.laws addr tys self (W.types _ (by decide)) ((Sys.init (Srv.init addr tys self) sers).srvHist K es)
    (fun e he => by obtain ⟨se, hse, hh⟩ := srvHist_heap he; exact W.lib se hse _ hh) n k).2.2
  rw [sys_run_srv]
  exact h

/-- a request once answered has ended -/
theorem answered_done {es : List SEv} (W : World K L idOf (Srv.init addr tys self) sers es) {n : Bytes} {k : Nat} {f : Fut}
    (hf : (((Sys.init (Srv.init addr tys self) sers).run K es).cli n).fut k = some f) (ha : f.answered) :
    1 ≤ countDone n k ((Sys.init (Srv.init addr tys self) sers).outs K es) := by
  obtain ⟨q, -, -, -, H, r, s1, s2, P, junk, -, -, -, pre, e, post, ser, w, s1', hh, hm, hc⟩ := answered_trace W hf ha
  obtain ⟨-, hd, -⟩ := step_one_send hc.owner hm
  have hmem : Out.done n k none ∈ (Sys.init (Srv.init addr tys self) sers).outs K es := by
    rw [Sys.outs, hh]
    show _ ∈ ((Srv.init addr tys self).run _).2
    rw [run_append]
    simp only [List.mem_append, Srv.run]
    exact .inr (.inl hd)
  rw [countDone]
  exact List.countP_pos_iff.2 ⟨_, hmem, by simp⟩

/-- a request once answered is not running, then or later -/
theorem answered_not_open {a b : List SEv} (W : World K L idOf (Srv.init addr tys self) sers (a ++ b)) {n : Bytes} {k : Nat} {f : Fut}
    (hf : (((Sys.init (Srv.init addr tys self) sers).run K a).cli n).fut k = some f) (ha : f.answered) :
    ((Sys.init (Srv.init addr tys self) sers).run K (a ++ b)).srv.countOpen n k = 0 := by
  have h1 := answered_done W.prefix hf ha
  have h2 := world_counts W n k
  have h3 := C34_never_twice (K := K) (addr := addr) (tys := tys) (self := self) (sers := sers) W.fits n k (by omega)
  have h4 : countDone n k ((Sys.init (Srv.init addr tys self) sers).outs K a) ≤ countDone n k ((Sys.init (Srv.init addr tys self) sers).outs K (a ++ b)) := by
    rw [outs_append, countDone, countDone, List.countP_append]; omega
  omega

/-- a request is asked in the event that asks it -/
theorem asked_at {n : Bytes} {es : List SEv} : ∀ {x q y}, (Sys.init (Srv.init addr tys self) sers).asked K es n = x ++ q :: y →
    ∃ a E t act o rt sy b, es = a ++ .request n E t act o rt sy :: b ∧ (Sys.init (Srv.init addr tys self) sers).asked K a n = x := by
  induction es using snoc_induction with
  | h0 => intro x q y h; simp [Sys.asked, Sys.cliHist, Cli.asked] at h
  | hs es e ih =>
    intro x q y h
    rw [Sys.asked, cliHist_append, asked_append] at h
    have hrest : ∀ l : List CEv, (∀ E t act o rt sy, CEv.send E t act o rt sy ∉ l) → ∀ c : Cli, c.asked K l = [] := by
      intro l
      induction l with
      | nil => intro _ _; rfl
      | cons e l ih =>
        intro h c
        have ih := ih fun E t act o rt sy hm => h E t act o rt sy (List.mem_cons_of_mem _ hm)
        cases e with
        | send E t act o rt sy => exact absurd List.mem_cons_self (h E t act o rt sy)
        | _ => simp only [Cli.asked, ih]; rfl
    by_cases he : ∃ E t act o rt sy, e = .request n E t act o rt sy
    · obtain ⟨E, t, act, o, rt, sy, rfl⟩ := he
      simp only [Sys.cliHist, Sys.cliEvs, if_true, List.append_nil, Cli.asked] at h
      rcases List.append_eq_append_iff.1 h with ⟨z, h1, h2⟩ | ⟨z, h1, h2⟩
      · -- after what was asked before
        refine ⟨es, E, t, act, o, rt, sy, [], rfl, ?_⟩
        cases z with
        | nil => rw [List.append_nil] at h1; exact h1.symm
        | cons z0 z =>
          exfalso
          split at h2
          · simp at h2
          · simp at h2
      · cases z with
        | nil =>
          refine ⟨es, E, t, act, o, rt, sy, [], rfl, ?_⟩
          rw [List.append_nil] at h1; exact h1
        | cons z0 z =>
          simp only [List.cons_append, List.cons.injEq] at h2
          obtain ⟨a, E', t', act', o', rt', sy', b, h3, h4⟩ := ih (x := x) (q := z0) (y := z) h1
          exact ⟨a, E', t', act', o', rt', sy', b ++ [.request n E t act o rt sy], by rw [h3]; simp, h4⟩
    · have hnil : ((Sys.init (Srv.init addr tys self) sers).run K es).cliHist K n [e] = [] ∨
          ∀ E t act o rt sy, CEv.send E t act o rt sy ∉ ((Sys.init (Srv.init addr tys self) sers).run K es).cliHist K n [e] := by
        right
        intro E t act o rt sy hm
        simp only [Sys.cliHist, List.append_nil] at hm
        cases e with
        | request n' E' t' act' o' rt' sy' =>
          simp only [Sys.cliEvs] at hm
          split at hm
          · subst_vars; exact he ⟨_, _, _, _, _, _, rfl⟩
          · simp at hm
        | deliver n' P junk =>
          simp only [Sys.cliEvs] at hm
          repeat' split at hm
          all_goals simp at hm
        | forget n' k => simp only [Sys.cliEvs] at hm; split at hm <;> simp at hm
        | closeClient n' => simp only [Sys.cliEvs] at hm; split at hm <;> simp at hm
        | _ => simp [Sys.cliEvs] at hm
      have h0 : Cli.asked K (((Sys.init (Srv.init addr tys self) sers).cli n).run K ((Sys.init (Srv.init addr tys self) sers).cliHist K n es)).1
          (((Sys.init (Srv.init addr tys self) sers).run K es).cliHist K n [e]) = [] := by
        rcases hnil with h | h
        · rw [h]; rfl
        · exact hrest _ h _
      rw [h0, List.append_nil] at h
      obtain ⟨a, E', t', act', o', rt', sy', b, h3, h4⟩ := ih h
      exact ⟨a, E', t', act', o', rt', sy', b ++ [e], by rw [h3]; simp, h4⟩

/-- what runs was asked -/
theorem open_asked {es : List SEv} (W : World K L idOf (Srv.init addr tys self) sers es) (n : Bytes) (k : Int) :
    ((Sys.init (Srv.init addr tys self) sers).run K es).srv.countOpen n k ≤
      ((Sys.init (Srv.init addr tys self) sers).asked K es n).countP fun q => decide (q.id = k) := by
  have h2 := world_counts W n k
  have h3 := (C35_in_order (K := K) (addr := addr) (tys := tys) (self := self) (sers := sers) W.fits n).countP_le (p := fun x => decide (x.1 = k))
  rw [← countAccepted_started, List.countP_map] at h3
  have h4 : ((fun x : Int × String × String => decide (x.1 = k)) ∘ Asked.brief) = fun q => decide (q.id = k) := rfl
  rw [h4] at h3
  omega
end
end Verif
