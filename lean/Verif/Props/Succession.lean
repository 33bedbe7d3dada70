import Verif.Proof.Succession
/-!
# Servers that follow one another at one address: C137, C138
-/
namespace Verif

/-! ## C137: a proxy reaches the object it was made for -/

/-- **C137** at the server that made the proxy: whatever other servers there were before or after it, the object reached is the one the proxy was
made for. Missing: the proxy may reach objects of other servers, see `C137_fails`. -/
theorem C137_partial (idOf : Nat → Obj → Nat) (es : List SuccEv) (hi : SuccSt.IdsOk idOf {} es) (n m g oid rid : Nat) (o o' : Obj)
    (hm : .made n g oid rid o ∈ (SuccSt.run idOf {} es).2) (hr : .reached m g g oid o' ∈ (SuccSt.run idOf {} es).2) : o' = o := by
  obtain ⟨h1, -, h3⟩ := succInv_run idOf {} [] es (succInv_init idOf) hi
  simp only [List.nil_append] at h1 h3
  obtain ⟨h, t, g1, -, g3, g4⟩ := h3 g (h1 _ _ _ _ _ hm)
  obtain ⟨x, hx, hx1, hx2⟩ := g4 _ _ _ _ hr
  rw [← hx2]
  exact C04_no_stale_aliasing g1 hx (g3 _ _ _ _ hm) hx1

/-- **C137** exactly: which object a proxy reaches depends on its object id and the server that listens, not on the server that made it. The
request raises KeyError exactly if that server holds no object with the id. -/
theorem C137_exact (idOf : Nat → Obj → Nat) (s : SuccSt) (n g oid : Nat) (q : List (Nat × SuccAsk)) (hu : s.up = true) (hq : s.queue = (n, .use g oid) :: q) :
    (∀ o r, s.table.refs.get? oid = some (o, r) → (s.step idOf .carry).2 = [.reached n s.gen g oid o]) ∧
    (s.table.refs.get? oid = none → (s.step idOf .carry).2 = [.raised n s.gen (.use g oid) .keyError]) := by
  refine ⟨fun o r h => ?_, fun h => ?_⟩ <;> simp [SuccSt.step, hu, hq, SuccSt.carry, Refs.lookup, h]

/-- **C137 fails** when a server ends without being closed and another takes its address: every proxy of the first reaches the object of the second
that was handed out at the same place in its life, whatever these objects are. -/
theorem C137_fails (idOf : Nat → Obj → Nat) (n m p : Nat) (os os' : List Obj) (h : (os.map (idOf 0)).Nodup) (h' : (os'.map (idOf 1)).Nodup) (k : Nat) (o o' : Obj)
    (hk : os[k]? = some o) (hk' : os'[k]? = some o') :
    (∃ rid out, (SuccSt.run idOf {} (asksFor n (os.take k) ++ [.send n (.make o), .carry])).2 = out ++ [.made n 0 k rid o]) ∧
    ∃ out, (SuccSt.run idOf {} (asksFor n os ++ ([.crash, .start] ++ (asksFor m os' ++ [.send p (.use 0 k), .carry])))).2 = out ++ [.reached p 1 0 k o'] := by
  constructor
  · have ht : ((os.take k).map (idOf 0)).Nodup := (List.take_sublist k os).map (idOf 0) |>.nodup h
    obtain ⟨⟨a1, a2, a3, a4, a5, a6⟩, -⟩ := asksFor_run idOf n (os.take k) {} rfl rfl rfl
    obtain ⟨b1, b2, b3, b4⟩ := given_spec (idOf 0) (os.take k) ht
    have hl : k < os.length := (List.getElem?_eq_some_iff.1 hk).1
    have hlen : (os.take k).length = k := by rw [List.length_take]; omega
    have hno : idOf 0 o ∉ (os.take k).map (idOf 0) := by
      intro hm
      have h5 : os = os.take k ++ o :: os.drop (k + 1) := by
        rw [show o = os[k] from (List.getElem?_eq_some_iff.1 hk).2.symm, List.getElem_cons_drop, List.take_append_drop]
      rw [h5, List.map_append, List.nodup_append] at h
      exact h.2.2 _ hm _ (by simp) rfl
    rw [succ_run_append]
    generalize (SuccSt.run idOf {} (asksFor n (os.take k))).1 = s at *
    have hg : s.gone n = false := by rw [a3]
    have ht : s.table = given (idOf 0) (os.take k) := a6
    have hp : (s.table.getProxy (idOf 0) o).2 = .ok (k, k) := by
      rw [ht]; simp [Refs.getProxy, Refs.getObjectId, b4 _ hno, b1, b2, hlen]
    have hgen : s.gen = 0 := a5
    refine ⟨k, (SuccSt.run idOf {} (asksFor n (os.take k))).2, ?_⟩
    congr 1
    simp only [SuccSt.run, SuccSt.step, hg, a1, a2, SuccSt.carry, hgen, Bool.false_eq_true, if_false, List.nil_append]
    cases hx : s.table.getProxy (idOf 0) o with
    | mk t r =>
      rw [hx] at hp
      simp only at hp
      subst hp
      simp
  · obtain ⟨⟨a1, a2, a3, a4, a5, a6⟩, -⟩ := asksFor_run idOf n os {} rfl rfl rfl
    obtain ⟨b1, b2, b3, b4⟩ := given_spec (idOf 1) os' h'
    simp only [succ_run_append]
    generalize (SuccSt.run idOf {} (asksFor n os)).1 = s at *
    have hs : (s.run idOf [.crash, .start]).1 = { s with gen := 1, up := true, table := Refs.init, known := [] } := by
      have : s.gen = 0 := a5
      simp [SuccSt.run, SuccSt.step, this]
    rw [hs]
    obtain ⟨⟨c1, c2, c3, c4, c5, c6⟩, -⟩ := asksFor_run idOf m os' { s with gen := 1, up := true, table := Refs.init, known := [] } rfl a2 (by simp [a3])
    generalize (SuccSt.run idOf { s with gen := 1, up := true, table := Refs.init, known := [] } (asksFor m os')).1 = s' at *
    have ht : s'.table = given (idOf 1) os' := c6
    have hg : s'.gone p = false := by rw [c3]; simp [a3]
    have hgen : s'.gen = 1 := c5
    have hl : s'.table.lookup k = .ok o' := by simp [Refs.lookup, ht, b3, hk']
    have hf : (s'.run idOf [.send p (.use 0 k), .carry]).2 = [.reached p 1 0 k o'] := by
      simp [SuccSt.run, SuccSt.step, hg, c1, c2, SuccSt.carry, hl, hgen]
    rw [hf, ← List.append_assoc, ← List.append_assoc]
    exact ⟨_, rfl⟩

/-- **C137 fails** also when the server is closed and the client has not yet read the message about it: the request goes to the next server. -/
theorem C137_fails_closed : ∃ es, .made 0 0 0 0 7 ∈ (SuccSt.run (fun _ o => o) {} es).2 ∧ .reached 0 1 0 0 8 ∈ (SuccSt.run (fun _ o => o) {} es).2 ∧
    .crash ∉ es ∧ ∀ n, .renew n ∉ es :=
  ⟨[.send 0 (.make 7), .carry, .close, .start, .send 1 (.make 8), .carry, .send 0 (.use 0 0), .carry], by decide, by decide, by decide, by simp⟩

/-- **C137 fails** for `delete` too: when a proxy of the first server is deleted (with `auto_delete`, when it is collected), the second releases its
own object, and the proxy handed out for it does not work any more. -/
theorem C137_fails_delete : ∃ es, .made 1 1 0 0 8 ∈ (SuccSt.run (fun _ o => o) {} es).2 ∧ (∀ n, .send n (.delete 1 0 0) ∉ es) ∧
    .raised 1 1 (.use 1 0) .keyError ∈ (SuccSt.run (fun _ o => o) {} es).2 :=
  ⟨[.send 0 (.make 7), .carry, .crash, .start, .send 1 (.make 8), .carry, .send 0 (.delete 0 0 0), .carry, .send 1 (.use 1 0), .carry],
    by decide, by simp, by decide⟩

/-- A client that has read the message, and has no requests under way, stays so. -/
theorem told_step (idOf : Nat → Obj → Nat) (s : SuccSt) (n : Nat) (e : SuccEv) (hg : s.gone n = true) (hq : ∀ a, (n, a) ∉ s.queue) (hr : e ≠ .renew n) :
    ((s.step idOf e).1.gone n = true ∧ ∀ a, (n, a) ∉ (s.step idOf e).1.queue) ∧ ∀ o ∈ (s.step idOf e).2, ¬ o.doneFor n := by
  cases e with
  | send m a =>
    simp only [SuccSt.step]
    split
    · exact ⟨⟨hg, hq⟩, by simp [SuccOut.doneFor]⟩
    · rename_i h
      refine ⟨⟨hg, fun b hb => ?_⟩, by simp⟩
      rcases List.mem_append.1 hb with hb | hb
      · exact hq b hb
      · simp only [List.mem_singleton, Prod.mk.injEq] at hb
        rw [hb.1] at hg; exact h hg
  | carry =>
    simp only [SuccSt.step]
    split
    · rename_i m a q hu hq'
      have hm : m ≠ n := fun h => hq a (by rw [hq', h]; simp)
      refine ⟨⟨hg, fun b hb => hq b (by rw [hq']; exact List.mem_cons_of_mem _ hb)⟩, fun o ho => ?_⟩
      simp only [List.mem_singleton] at ho
      subst ho
      cases a <;> simp only [SuccSt.carry] <;> split <;> simpa [SuccOut.doneFor] using hm
    · exact ⟨⟨hg, hq⟩, by simp⟩
  | lose => exact ⟨⟨hg, fun a ha => hq a (List.mem_of_mem_tail ha)⟩, by simp [SuccSt.step]⟩
  | close => simp only [SuccSt.step]; split <;> exact ⟨⟨hg, hq⟩, by simp⟩
  | crash => exact ⟨⟨hg, hq⟩, by simp [SuccSt.step]⟩
  | start => simp only [SuccSt.step]; split <;> exact ⟨⟨hg, hq⟩, by simp⟩
  | read m => simp only [SuccSt.step]; split <;> exact ⟨⟨by simp [hg], hq⟩, by simp⟩
  | renew m =>
    have hm : n ≠ m := fun h => hr (by rw [h])
    simp only [SuccSt.step]; split <;> exact ⟨⟨by simp [hg, hm], hq⟩, by simp⟩

/-- **C137** for a client that has read the message of the closed server and has no request under way: none of its proxies reaches anything at the
servers that follow, as long as the client is not closed and made anew. -/
theorem C137_told (idOf : Nat → Obj → Nat) (s : SuccSt) (n : Nat) (es : List SuccEv) (hg : s.gone n = true) (hq : ∀ a, (n, a) ∉ s.queue)
    (hr : .renew n ∉ es) : ∀ o ∈ (s.run idOf es).2, ¬ o.doneFor n := by
  induction es generalizing s with
  | nil => simp [SuccSt.run]
  | cons e es ih =>
    obtain ⟨⟨h1, h2⟩, h3⟩ := told_step idOf s n e hg hq (fun h => hr (by simp [h]))
    intro o ho
    simp only [SuccSt.run, List.mem_append] at ho
    rcases ho with ho | ho
    · exact h3 o ho
    · exact ih _ h1 h2 (fun h => hr (List.mem_cons_of_mem _ h)) o ho

/-! ## C138: the next server can be used -/

/-- **C138 fails** for a client that has read the message of a closed server: each of its requests raises RuntimeError for ever, though a server
listens at the address, unless the user closes the client; `get_client` keeps returning it. -/
theorem C138_fails (idOf : Nat → Obj → Nat) (s : SuccSt) (n : Nat) (a : SuccAsk) (es : List SuccEv) (hg : s.gone n = true) (hr : .renew n ∉ es) :
    ((s.run idOf es).1.step idOf (.send n a)) = ((s.run idOf es).1, [.refused n]) := by
  suffices (s.run idOf es).1.gone n = true by simp [SuccSt.step, this]
  induction es generalizing s with
  | nil => exact hg
  | cons e es ih =>
    refine ih _ ?_ (fun h => hr (List.mem_cons_of_mem _ h))
    cases e <;> simp only [SuccSt.step] <;> (repeat' split) <;> (try exact hg)
    · simp [hg]
    · rename_i m _
      have hm : n ≠ m := fun h => hr (by simp [h])
      simp [hg, hm]

theorem carry_answers (idOf : Nat → Obj → Nat) (s : SuccSt) (n : Nat) (a : SuccAsk) : (s.carry idOf n a).2.answers n s.gen a := by
  cases a <;> simp only [SuccSt.carry] <;> split <;> simp [SuccOut.answers]

/-- Requests under way are carried out in turn. -/
theorem carries (idOf : Nat → Obj → Nat) (n : Nat) (a : SuccAsk) (q : List (Nat × SuccAsk)) (s : SuccSt) (hu : s.up = true) (hq : s.queue = q ++ [(n, a)]) :
    ∃ out o, (s.run idOf (List.replicate (q.length + 1) .carry)).2 = out ++ [o] ∧ out.length = q.length ∧ o.answers n s.gen a := by
  induction q generalizing s with
  | nil =>
    refine ⟨[], _, ?_, rfl, carry_answers idOf s n a⟩
    simp [SuccSt.run, SuccSt.step, hu, hq]
  | cons x q ih =>
    obtain ⟨m, b⟩ := x
    obtain ⟨out, o, h1, h2, h3⟩ := ih ⟨s.gen, s.up, (s.carry idOf m b).1, if m ∈ s.known then s.known else s.known ++ [m], s.note, s.gone, q ++ [(n, a)]⟩ hu rfl
    refine ⟨(s.carry idOf m b).2 :: out, o, ?_, by simp [h2], h3⟩
    rw [List.length_cons, List.replicate_succ]
    simp only [SuccSt.run, SuccSt.step, hu, hq, List.cons_append] at h1 ⊢
    rw [h1]
    simp

/-- **C138** otherwise: a client that was not told (the server crashed, or did not know it), or was made anew, reaches the server that listens: what it
asks is carried out after what is already under way, by that server. Missing: clients that were told, see `C138_fails`. -/
theorem C138_partial (idOf : Nat → Obj → Nat) (s : SuccSt) (n : Nat) (a : SuccAsk) (hu : s.up = true) (hg : s.gone n = false) :
    ∃ out o, (s.run idOf (.send n a :: List.replicate (s.queue.length + 1) .carry)).2 = out ++ [o] ∧ out.length = s.queue.length ∧ o.answers n s.gen a := by
  simp only [SuccSt.run, SuccSt.step, hg, Bool.false_eq_true, if_false, List.nil_append]
  exact carries idOf n a s.queue { s with queue := s.queue ++ [(n, a)] } hu rfl

/-- **C138** Making the client anew helps. -/
theorem C138_renewed (idOf : Nat → Obj → Nat) (s : SuccSt) (n : Nat) (hu : s.up = true) :
    (s.step idOf (.renew n)).1.gone n = false ∧ (s.step idOf (.renew n)).1.up = true ∧ (s.step idOf (.renew n)).1.gen = s.gen := by
  simp [SuccSt.step, hu]

/-- **C138** Only a message of a closed server makes a client refuse. -/
theorem C138_crash (idOf : Nat → Obj → Nat) (es : List SuccEv) (hc : .close ∉ es) (n : Nat) : (SuccSt.run idOf {} es).1.gone n = false := by
  suffices ∀ s : SuccSt, (∀ n, s.gone n = false ∧ s.note n = false) → ∀ n, (s.run idOf es).1.gone n = false ∧ (s.run idOf es).1.note n = false from
    (this {} (fun _ => ⟨rfl, rfl⟩) n).1
  induction es with
  | nil => exact fun s h => h
  | cons e es ih =>
    intro s h
    refine ih (fun h => hc (List.mem_cons_of_mem _ h)) _ fun n => ?_
    cases e with
    | close => exact absurd List.mem_cons_self hc
    | read m => simp [SuccSt.step, h]
    | renew m => simp only [SuccSt.step]; split <;> simp [h]
    | send m a => simp only [SuccSt.step]; split <;> exact h n
    | carry => simp only [SuccSt.step]; split <;> exact h n
    | lose => exact h n
    | crash => exact h n
    | start => simp only [SuccSt.step]; split <;> exact h n

/-- The outcome of a request that client `n` sent and a server carried out. -/
def SuccOut.isAnswerTo (n : Nat) : SuccOut → Prop
  | .refused _ => False
  | .made m _ _ _ _ => m = n
  | .reached m _ _ _ _ => m = n
  | .released m _ _ _ _ => m = n
  | .raised m _ _ _ => m = n

/-- **C138** A server tells only those clients it has carried out requests of: a client that refuses has had one carried out. -/
theorem C138_stranger (idOf : Nat → Obj → Nat) (es : List SuccEv) (n : Nat) (hg : (SuccSt.run idOf {} es).1.gone n = true) :
    ∃ o ∈ (SuccSt.run idOf {} es).2, o.isAnswerTo n := by
  suffices ∀ es, ((SuccSt.run idOf {} es).1.gone n = true ∨ (SuccSt.run idOf {} es).1.note n = true ∨ n ∈ (SuccSt.run idOf {} es).1.known) →
      ∃ o ∈ (SuccSt.run idOf {} es).2, o.isAnswerTo n from this es (.inl hg)
  clear hg es
  intro es
  induction es using snoc_induction with
  | h0 => simp [SuccSt.run]
  | hs es e ih =>
    rw [succ_run_append]
    simp only [SuccSt.run, List.append_nil, List.mem_append]
    generalize (SuccSt.run idOf {} es).1 = s at ih ⊢
    intro h
    by_cases ho : s.gone n = true ∨ s.note n = true ∨ n ∈ s.known
    · obtain ⟨o, ho1, ho2⟩ := ih ho; exact ⟨o, .inl ho1, ho2⟩
    · cases e with
      | carry =>
        simp only [SuccSt.step] at h ⊢
        split at h
        · rename_i m a q hu hq
          have hm : m = n := by simp only at h; grind
          subst hm
          refine ⟨(s.carry idOf m a).2, .inr (by simp [hu, hq]), ?_⟩
          cases a <;> simp only [SuccSt.carry] <;> split <;> rfl
        · exact absurd h ho
      | _ => exfalso; apply ho; simp only [SuccSt.step] at h; grind

/-! ## The theorems on these cases -/

namespace Ex

/-- Two servers hand out three and two objects; `id()` of the second process gives other numbers. -/
def idsOf (g : Nat) (o : Obj) : Nat := 8 * o + g

example := C137_fails idsOf 0 1 0 [5, 6, 7] [9, 8] (by decide) (by decide) 1 6 8 rfl rfl

def succession : List SuccEv :=
  asksFor 0 [5, 6] ++ [.send 0 (.use 0 1), .carry, .send 0 (.delete 0 1 1), .carry, .close, .read 0, .start] ++ asksFor 1 [8] ++ [.send 1 (.use 1 0), .carry]

theorem succession_ids : SuccSt.IdsOk idsOf {} succession := by
  have inj : ∀ g (o o' : Obj), idsOf g o' = idsOf g o → o' = o := by
    intro g o o' h; simp only [idsOf] at h; exact Nat.eq_of_mul_eq_mul_left (by decide : 0 < 8) (Nat.add_right_cancel h)
  suffices ∀ es s, SuccSt.IdsOk idsOf s es from this _ _
  intro es
  induction es with
  | nil => exact fun _ => trivial
  | cons e es ih => exact fun s => ⟨fun _ _ o _ _ _ o' _ _ h => inj _ o o' h, ih _⟩

example := C137_partial idsOf succession succession_ids 0 0 0 1 1 6 6 (by decide) (by decide)
example := C137_exact idsOf { gen := 1, table := given (idsOf 1) [8], queue := [(0, .use 0 0)] } 0 0 0 [] rfl rfl

/-- The client of the closed server has read the message; another server listens. -/
example := C137_told idsOf (SuccSt.run idsOf {} succession).1 0 [.send 0 (.use 0 0), .carry] (by decide) (by
  rw [show (SuccSt.run idsOf {} succession).1.queue = [] by decide]; simp) (by simp)
example := C138_fails idsOf (SuccSt.run idsOf {} succession).1 0 (.use 0 0) [.send 1 (.make 9), .carry] (by decide) (by simp)
example : (SuccSt.run idsOf {} succession).1.up = true ∧ (SuccSt.run idsOf {} succession).1.gen = 1 := by decide
example := C138_partial idsOf (SuccSt.run idsOf {} succession).1 1 (.use 1 0) (by decide) (by decide)
example := C138_stranger idsOf succession 0 (by decide)
example : (SuccSt.run idsOf {} [.close, .read 0]).1.gone 0 = false := by decide
example := C138_crash idsOf [.send 0 (.make 7), .carry, .crash, .start, .read 0] (by decide) 0
example := C138_renewed idsOf (SuccSt.run idsOf {} succession).1 0 (by decide)

end Ex

end Verif
