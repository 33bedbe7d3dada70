import Verif.Proof.MixedRelay
import Verif.Props.Relay
/-!
# C123: messages handed on over connections with different serializers
-/
namespace Verif
open Ex

/-- One transport of a value both serializers carry. -/
theorem carry_common {L : Lib} {tys : List Ty} {Q : Proxy → Prop} {b : MixedHop} {v : Val} (hb : b.hop.Proper L)
    (hty : ∀ ty ∈ tys, ty ∈ b.hop.sender.tys) (hQ : ∀ p, Q p → received b.hop.receiver p = .ok (.proxy p))
    (hc : Common L tys Q v) (hn : v.depth ≤ 512) (hj : v.jdepth ≤ 1000) :
    b.carry v = .ok (if b.json then jsonView v else v) := by
  have g := common_fits hb.link.receiver hty hQ v hc
  obtain ⟨hist, hr, ha⟩ := hb.table
  unfold MixedHop.carry
  split
  · obtain ⟨t', w, h1, h2⟩ := C18_json_exact hb.link hr ha g.js g.jp g.jx hj (.inr g.jf)
    rw [h1]; exact h2
  · obtain ⟨t', w, h1, h2⟩ := C17_msgpack_exact hb.link hr ha g.s g.p g.x hn (.inr g.f)
    rw [h1]; exact h2

/-- **C123.** A value both serializers carry, handed on over any number of connections, each with its own serializer,
always gets through. If no connection uses JSON the last receiver gets the value itself; otherwise it gets the
value with tuples as lists and float64 scalars as floats, no matter which and how many connections use JSON. -/
theorem C123_mixed {L : Lib} {tys : List Ty} {Q : Proxy → Prop} : ∀ (hs : List MixedHop) {v : Val},
    (∀ b ∈ hs, b.hop.Proper L ∧ (∀ ty ∈ tys, ty ∈ b.hop.sender.tys) ∧
      ∀ p, Q p → received b.hop.receiver p = .ok (.proxy p)) →
    Common L tys Q v → v.depth ≤ 512 → v.jdepth ≤ 1000 →
    mixedRelay hs v = .ok (if ∃ b ∈ hs, b.json = true then jsonView v else v)
  | [], v, _, _, _, _ => by simp [mixedRelay]
  | b :: hs, v, hall, hc, hn, hj => by
    obtain ⟨h1, h2, h3⟩ := hall b (by simp)
    obtain ⟨g1, g2, g3, g4⟩ := common_jsonView v hc
    have hcar := carry_common h1 h2 h3 hc hn hj
    have hrest := fun c hc => hall c (List.mem_cons_of_mem _ hc)
    simp only [mixedRelay, hcar]
    by_cases hbj : b.json = true
    · have hex : ∃ c ∈ b :: hs, c.json = true := ⟨b, List.mem_cons_self, hbj⟩
      rw [if_pos hbj, C123_mixed hs hrest g1 (by omega) (by omega), g4, if_pos hex]
      simp
    · rw [if_neg hbj, C123_mixed hs hrest hc hn hj]
      simp only [List.mem_cons, exists_eq_or_imp, hbj, Bool.false_eq_true, false_or]

/-- **C123.** Two routes between the same processes deliver the same if both use JSON somewhere or neither does. -/
theorem C123_route {L : Lib} {tys : List Ty} {Q : Proxy → Prop} {as bs : List MixedHop} {v : Val}
    (hall : ∀ b ∈ as ++ bs, b.hop.Proper L ∧ (∀ ty ∈ tys, ty ∈ b.hop.sender.tys) ∧
      ∀ p, Q p → received b.hop.receiver p = .ok (.proxy p))
    (hc : Common L tys Q v) (hn : v.depth ≤ 512) (hj : v.jdepth ≤ 1000)
    (hsame : (∃ b ∈ as, b.json = true) ↔ ∃ b ∈ bs, b.json = true) : mixedRelay as v = mixedRelay bs v := by
  rw [C123_mixed as (fun b hb => hall b (by simp [hb])) hc hn hj,
    C123_mixed bs (fun b hb => hall b (by simp [hb])) hc hn hj]
  simp only [hsame]

/-- **C123.** JSON loses the difference between a tuple and a list for good: a tuple that crossed one JSON connection is
a list for every later receiver, and a tuple that crossed none is still a tuple. -/
theorem C123_tuple {L : Lib} {tys : List Ty} {Q : Proxy → Prop} (hs : List MixedHop) {l : List Val}
    (hall : ∀ b ∈ hs, b.hop.Proper L ∧ (∀ ty ∈ tys, ty ∈ b.hop.sender.tys) ∧
      ∀ p, Q p → received b.hop.receiver p = .ok (.proxy p))
    (hc : Common L tys Q (.tuple l)) (hn : (Val.tuple l).depth ≤ 512) (hj : (Val.tuple l).jdepth ≤ 1000) :
    (∃ l', mixedRelay hs (.tuple l) = .ok (.list l') ∧ l'.length = l.length) ↔ ∃ b ∈ hs, b.json = true := by
  rw [C123_mixed hs hall hc hn hj]
  have hlen : ∀ l : List Val, (jsonViewL l).length = l.length := by
    intro l
    induction l with
    | nil => rfl
    | cons v vs ih => simp only [jsonViewL, List.length_cons, ih]
  by_cases h : ∃ b ∈ hs, b.json = true
  · rw [if_pos h]
    simp only [jsonView, h, iff_true, Except.ok.injEq, Val.list.injEq, exists_eq_left']
    exact hlen l
  · rw [if_neg h]
    simp [h]

/-! ## An example: A to B by msgpack, B to C by JSON, C to B by msgpack -/

/-- The example route. -/
def exMixed : List MixedHop := [⟨hopAB, false⟩, ⟨hopBC, true⟩, ⟨hopCB, false⟩]

theorem exMixed_ok : ∀ b ∈ exMixed, b.hop.Proper lib ∧ (∀ ty ∈ sendA.tys, ty ∈ b.hop.sender.tys) ∧
    ∀ p : Proxy, p.addr = "tcp://c:9" → received b.hop.receiver p = .ok (.proxy p) := by
  intro b hb
  refine ⟨exHops_proper b.hop ?_, ?_, ?_⟩
  · simp only [exMixed, List.mem_cons, List.not_mem_nil, or_false] at hb
    rcases hb with rfl | rfl | rfl <;> simp
  · simp only [exMixed, List.mem_cons, List.not_mem_nil, or_false] at hb
    rcases hb with rfl | rfl | rfl <;> exact fun _ h => h
  · simp only [exMixed, List.mem_cons, List.not_mem_nil, or_false] at hb
    intro p hp
    rcases hb with rfl | rfl | rfl <;> simp [received, hopAB, hopBC, hopCB, recvB, hp]

theorem exJVal_common : Common lib sendA.tys (fun p => p.addr = "tcp://c:9") exJVal := by
  simp only [exJVal, Common, CommonD, CommonL]
  refine ⟨⟨["a", "t", "n", "f", "g", "shm", "p"], rfl, by decide, by decide⟩, ?_⟩
  exact ⟨by trivial, ⟨by decide, Or.inl (by decide), by trivial⟩, ⟨by trivial, by decide⟩, ⟨by trivial, by decide⟩,
    ⟨by trivial, by decide⟩, ⟨rfl, _, rfl⟩, by trivial⟩

example : mixedRelay exMixed exJVal = .ok (jsonView exJVal) := by
  rw [C123_mixed exMixed exMixed_ok exJVal_common (by simp [exJVal, Val.depth, depthD, depthL])
    (by simp [exJVal, Val.jdepth, jdepthD, jdepthL]), if_pos]
  exact ⟨_, List.mem_cons_of_mem _ (List.mem_cons_self), rfl⟩

example : mixedRelay [⟨hopAB, false⟩, ⟨hopCB, false⟩] exJVal = .ok exJVal := by
  rw [C123_mixed _ (fun b hb => exMixed_ok b (by
      simp only [List.mem_cons, List.not_mem_nil, or_false] at hb
      rcases hb with rfl | rfl <;> simp [exMixed])) exJVal_common (by simp [exJVal, Val.depth, depthD, depthL])
    (by simp [exJVal, Val.jdepth, jdepthD, jdepthL]), if_neg]
  simp

example : mixedRelay exMixed exJVal = mixedRelay (exMixed ++ exMixed) exJVal :=
  C123_route (fun b hb => exMixed_ok b (by simpa using hb)) exJVal_common (by simp [exJVal, Val.depth, depthD, depthL])
    (by simp [exJVal, Val.jdepth, jdepthD, jdepthL]) (by simp [exMixed])

example : ∃ l', mixedRelay exMixed (.tuple [.int 1, .tuple []]) = .ok (.list l') ∧ l'.length = 2 :=
  (C123_tuple exMixed exMixed_ok (l := [.int 1, .tuple []]) (by trivial) (by decide) (by decide)).2
    ⟨_, List.mem_cons_of_mem _ (List.mem_cons_self), rfl⟩

end Verif
