import Verif.Proof.Lifetime
/-!
# C48: auto_delete
-/
namespace Verif

/-- **C48, partial.** In a careful program the server keeps the object of every living proxy that was handed out by the server or is derived
from such a proxy: it resolves to the object it was handed out for. Missing: programs in which a derived proxy, or a copy, with
`auto_delete` is collected (`C48_fails`), that is almost all that use `auto_delete`, since derived proxies inherit it. -/
theorem C48_kept_partial {idOf s h} (hl : Lives idOf Careful s h) {i p} (hr : Rooted s i) (hp : s.live.get? i = some p) :
    s.refs.lookup p.oid = .ok p.obj :=
  (C01_resolvable_iff_outstanding (lives_reach hl) _ _).2 ⟨_, rooted_handle hl hr hp, rfl, rfl⟩

/-- **C48** In every program, once a proxy with `auto_delete` is collected its reference is released. -/
theorem C48_released {idOf ok s h} (hl : Lives idOf ok s h) {i p} (hp : s.live.get? i = some p) (ha : p.auto = true)
    (hc : ∀ e ∈ s.live, e.2.origin ≠ .derived i) :
    (s.step idOf (.collect i)).1.live.get? i = none ∧
    ∀ x ∈ outstanding (h ++ (s.step idOf (.collect i)).2), ¬ (x.oid = p.oid ∧ x.rid = p.rid) := by
  have hch : s.hasChild i = false := by
    unfold LifeSt.hasChild
    rw [List.any_eq_false]
    intro e he
    simpa using hc e he
  simp only [LifeSt.step, hp, hch, ha, if_true]
  refine ⟨?_, ?_⟩
  · simp [Dict.get?_erase]
  · exact deleted_gone (lives_reach hl) _ _

/-- **C48** In every program a proxy that a living proxy is derived from lives too, with the same reference. -/
theorem C48_parent {idOf ok s h} (hl : Lives idOf ok s h) {i p j} (hp : s.live.get? i = some p) (ho : p.origin = .derived j) :
    ∃ q, s.live.get? j = some q ∧ q.oid = p.oid ∧ q.rid = p.rid ∧ q.obj = p.obj :=
  ((lives_inv hl).parent i p j hp ho).2

theorem notAuto_step {idOf : Obj → Nat} {s : LifeSt} {n : Nat} (hn : n < s.next) (ha : ∀ q, s.live.get? n = some q → q.auto = false) (e : LifeEv) (he : e ≠ .setAuto n true) :
    n < (s.step idOf e).1.next ∧ ∀ q, (s.step idOf e).1.live.get? n = some q → q.auto = false := by
  have hadd : ∀ (s : LifeSt) p, n < s.next → (∀ q, s.live.get? n = some q → q.auto = false) → n < (s.add p).next ∧ ∀ q, (s.add p).live.get? n = some q → q.auto = false := by
    intro s p hn ha
    refine ⟨Nat.lt_succ_of_lt hn, fun q hq => ?_⟩
    rw [add_get, if_neg (by omega)] at hq
    exact ha q hq
  cases e with
  | obtain o =>
    simp only [LifeSt.step]
    split
    · exact hadd _ _ hn ha
    · exact ⟨hn, ha⟩
  | setAuto i b =>
    simp only [LifeSt.step]
    split
    · next p hp =>
      refine ⟨hn, fun q hq => ?_⟩
      simp only [Dict.get?_set] at hq
      split at hq
      · next hi =>
        subst hi
        simp only [Option.some.injEq] at hq
        subst hq
        cases b with
        | true => exact absurd rfl he
        | false => rfl
      · exact ha q hq
    · exact ⟨hn, ha⟩
  | derive i => simp only [LifeSt.step]; split <;> first | exact hadd _ _ hn ha | exact ⟨hn, ha⟩
  | copy i => simp only [LifeSt.step]; split <;> first | exact hadd _ _ hn ha | exact ⟨hn, ha⟩
  | send i => simp only [LifeSt.step]; split <;> first | exact hadd _ _ hn ha | exact ⟨hn, ha⟩
  | collect i =>
    simp only [LifeSt.step]
    have herase : ∀ q, Dict.get? (s.live.erase i) n = some q → q.auto = false := by
      intro q hq
      rw [Dict.get?_erase] at hq
      split at hq
      · cases hq
      · exact ha q hq
    split
    · split
      · exact ⟨hn, ha⟩
      · split
        · exact ⟨hn, herase⟩
        · exact ⟨hn, herase⟩
    · exact ⟨hn, ha⟩
  | delete i => simp only [LifeSt.step]; split <;> exact ⟨hn, ha⟩
  | other op => exact ⟨hn, ha⟩

/-- The state after these events. -/
def lifeEnd (idOf : Obj → Nat) (s : LifeSt) (es : List LifeEv) : LifeSt := es.foldl (fun s e => (s.step idOf e).1) s

/-- **C48** In every program and state, the copy of a proxy that its receiver gets has not `auto_delete`, whatever the sender's has: it stands for the same object, and however long it lives,
unless the option is switched on for it, collecting it releases nothing. -/
theorem C48_sent {idOf : Obj → Nat} {s : LifeSt} {i p} (hp : s.live.get? i = some p) (es : List LifeEv) (he : .setAuto s.next true ∉ es) :
    (s.step idOf (.send i)).1.live.get? s.next = some { p with origin := .copied, auto := false } ∧
    ((lifeEnd idOf (s.step idOf (.send i)).1 es).step idOf (.collect s.next)).2 = [] := by
  have hs : (s.step idOf (.send i)).1 = s.add { p with origin := .copied, auto := false } := by simp only [LifeSt.step, hp]
  have h1 : (s.step idOf (.send i)).1.live.get? s.next = some { p with origin := .copied, auto := false } := by rw [hs, add_get, if_pos rfl]
  have h2 : s.next < (s.step idOf (.send i)).1.next := by rw [hs]; exact Nat.lt_succ_self _
  have h3 : ∀ q, (s.step idOf (.send i)).1.live.get? s.next = some q → q.auto = false := by
    intro q hq; rw [h1] at hq; simp only [Option.some.injEq] at hq; subst hq; rfl
  refine ⟨h1, ?_⟩
  generalize (s.step idOf (.send i)).1 = s' at h2 h3
  clear h1 hs
  generalize s.next = n at *
  have key : ∀ q, (lifeEnd idOf s' es).live.get? n = some q → q.auto = false := by
    induction es generalizing s' with
    | nil => exact h3
    | cons e es ih =>
      obtain ⟨h4, h5⟩ := notAuto_step (idOf := idOf) h2 h3 e (fun hh => he (by simp [hh]))
      exact ih _ (fun hh => he (by simp [hh])) h4 h5
  simp only [LifeSt.step]
  split
  · next q hq =>
    split
    · rfl
    · rw [if_neg (by simp [key q hq])]
  · rfl

namespace Ex

/-- A situation reached by a list of events, all of which satisfy `ok` (checked by evaluation). -/
def lifeRun (idOf : Obj → Nat) : LifeSt → RefHistory → List LifeEv → LifeSt × RefHistory
  | s, h, [] => (s, h)
  | s, h, e :: es => lifeRun idOf (s.step idOf e).1 (h ++ (s.step idOf e).2) es

theorem lifeRun_lives {idOf : Obj → Nat} (hinj : ∀ a b, idOf a = idOf b → a = b) {ok} : ∀ (es : List LifeEv) (s h), Lives idOf ok s h →
    (∀ k, k < es.length → ∀ e, es[k]? = some e → ok (lifeRun idOf s h (es.take k)).1 e) →
    Lives idOf ok (lifeRun idOf s h es).1 (lifeRun idOf s h es).2
  | [], _, _, hl, _ => hl
  | e :: es, s, h, hl, hok => by
    refine lifeRun_lives hinj es _ _ (hl.step e (hok 0 (by simp) e rfl) ?_ ?_) ?_
    · intro o _ x _ hx; exact hinj _ _ hx
    · intro op _
      cases op with
      | get o k => intro x _ hx; exact hinj _ _ hx
      | delete a b => trivial
    · intro k hk e' he'
      exact hok (k + 1) (by simpa using hk) e' (by simpa using he')

/-- **C48 fails.** A proxy with `auto_delete`, obtained from the server, lives; a proxy derived from it (say, for a method call) was
collected: the server has released the object. -/
theorem C48_fails : ∃ s h p, Lives id (fun _ e => ∀ i, e ≠ .delete i) s h ∧ s.live.get? 0 = some p ∧ p.auto = true ∧ p.origin = .obtained ∧
    s.refs.lookup p.oid = .error .keyError := by
  refine ⟨_, _, ⟨0, 0, 7, true, .obtained⟩, lifeRun_lives (idOf := id) (fun _ _ h => h) [.obtain 7, .setAuto 0 true, .derive 0, .collect 1] _ _ .init ?_, ?_⟩
  · intro k _ e he i hi
    subst hi
    have := List.mem_of_getElem? he
    revert this; simp
  · decide +kernel

/-- A careful program: two proxies, one with `auto_delete`; a derived proxy whose `auto_delete` is switched off before it is collected; the
second proxy is collected. -/
def careful : LifeSt × RefHistory :=
  lifeRun id .init [] [.obtain 7, .obtain 8, .setAuto 0 true, .setAuto 1 true, .derive 0, .setAuto 2 false, .derive 2, .collect 3, .collect 1]

example : careful.1.live = [(0, ⟨0, 0, 7, true, .obtained⟩), (2, ⟨0, 0, 7, false, .derived 0⟩)] ∧ outstanding careful.2 = [⟨0, 0, 7⟩] := by
  decide +kernel
example : Rooted careful.1 2 :=
  .derived (p := ⟨0, 0, 7, false, .derived 0⟩) (by decide +kernel) rfl (.obtained (p := ⟨0, 0, 7, true, .obtained⟩) (by decide +kernel) rfl)

theorem careful_lives : Lives id Careful careful.1 careful.2 := by
  refine lifeRun_lives (idOf := id) (fun _ _ h => h) _ _ _ .init ?_
  intro k hk e he
  simp only [List.length_cons, List.length_nil] at hk
  match k, hk with
  | 0, _ | 1, _ | 2, _ | 3, _ | 4, _ | 5, _ | 6, _ => cases he; trivial
  | 7, _ =>
    cases he
    intro p hp ha
    have : p = ⟨0, 0, 7, false, .derived 2⟩ := Option.some.inj (hp.symm.trans (by decide +kernel))
    subst this; cases ha
  | 8, _ =>
    cases he
    intro p hp _
    have : p = ⟨1, 1, 8, true, .obtained⟩ := Option.some.inj (hp.symm.trans (by decide +kernel))
    subst this; rfl

end Ex

namespace Ex

example := C48_kept_partial careful_lives (i := 2) (p := ⟨0, 0, 7, false, .derived 0⟩)
  (.derived (p := ⟨0, 0, 7, false, .derived 0⟩) (by decide +kernel) rfl (.obtained (p := ⟨0, 0, 7, true, .obtained⟩) (by decide +kernel) rfl)) (by decide +kernel)
example := C48_parent careful_lives (i := 2) (p := ⟨0, 0, 7, false, .derived 0⟩) (j := 0) (by decide +kernel) rfl
example := C48_sent (idOf := id) (s := careful.1) (i := 0) (p := ⟨0, 0, 7, true, .obtained⟩) (by decide +kernel) [.collect 2] (by simp)
/-- Two proxies, nothing derived from either. -/
def two : LifeSt × RefHistory := lifeRun id .init [] [.obtain 7, .obtain 7, .setAuto 0 true]
theorem two_lives : Lives id Careful two.1 two.2 := by
  refine lifeRun_lives (idOf := id) (fun _ _ h => h) _ _ _ .init ?_
  intro k hk e he
  simp only [List.length_cons, List.length_nil] at hk
  match k, hk with
  | 0, _ => simp only [List.getElem?_cons_zero, Option.some.injEq] at he; subst he; simp [Careful]
  | 1, _ => simp only [List.getElem?_cons_succ, List.getElem?_cons_zero, Option.some.injEq] at he; subst he; simp [Careful]
  | 2, _ => simp only [List.getElem?_cons_succ, List.getElem?_cons_zero, Option.some.injEq] at he; subst he; simp [Careful]
example := C48_released two_lives (i := 0) (p := ⟨0, 0, 7, true, .obtained⟩) (by decide +kernel) rfl (by decide +kernel)

end Ex

end Verif
