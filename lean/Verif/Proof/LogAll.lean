import Verif.Spec.LogAll
import Verif.Props.LogNet
import Verif.Props.LogHandler
/-!
# Lemmas for C143
-/
namespace Verif

theorem passedIn_eq (os : List LogNetOut) : passedIn os = passedOf (ofServer os) := by
  simp only [passedIn, passedOf, ofServer, List.filterMap_filterMap]
  congr 1
  funext o
  cases o with
  | server o => cases o <;> rfl
  | _ => rfl

theorem emits_eq (E : LogEnv) (ms) (a : LogAll) (ds : List Fields) :
    (a.emits E ms ds).1.net = a.net ∧ (a.emits E ms ds).1.next = a.next + ds.length ∧
    (a.emits E ms ds).1.hdl = (a.hdl.run E ((seenFrom ms a.next ds).map .emit)).1 ∧ (a.emits E ms ds).2 = (a.hdl.run E ((seenFrom ms a.next ds).map .emit)).2 := by
  induction ds generalizing a with
  | nil => exact ⟨rfl, rfl, rfl, rfl⟩
  | cons d ds ih =>
    obtain ⟨h1, h2, h3, h4⟩ := ih { a with hdl := (a.hdl.step E (.emit (recordSeen ms a.next d))).1, next := a.next + 1 }
    refine ⟨h1, ?_, h3, ?_⟩
    · simp only [LogAll.emits, List.length_cons] at h2 ⊢; omega
    · simp only [LogAll.emits, seenFrom, List.map_cons, HandlerSt.run]; rw [h4]

theorem logNetOuts_append (a b : List LogAllOut) : logNetOuts (a ++ b) = logNetOuts a ++ logNetOuts b := List.filterMap_append
theorem hdlOuts_append (a b : List LogAllOut) : hdlOuts (a ++ b) = hdlOuts a ++ hdlOuts b := List.filterMap_append

theorem logNetOuts_net (os : List LogNetOut) : logNetOuts (os.map .net) = os := by
  induction os with
  | nil => rfl
  | cons o os ih => simpa [logNetOuts] using ih

theorem logNetOuts_hdl (os : List LogOut) : logNetOuts (os.map .hdl) = [] := by
  induction os with
  | nil => rfl
  | cons o os ih => simpa [logNetOuts] using ih

theorem hdlOuts_net (os : List LogNetOut) : hdlOuts (os.map .net) = [] := by
  induction os with
  | nil => rfl
  | cons o os ih => simpa [hdlOuts] using ih

theorem hdlOuts_hdl (os : List LogOut) : hdlOuts (os.map .hdl) = os := by
  induction os with
  | nil => rfl
  | cons o os ih => simpa [hdlOuts] using ih

theorem seenFrom_append (ms) (k : Nat) (a b : List Fields) : seenFrom ms k (a ++ b) = seenFrom ms k a ++ seenFrom ms (k + a.length) b := by
  induction a generalizing k with
  | nil => rfl
  | cons d a ih => simp [seenFrom, ih, show k + 1 + a.length = k + (a.length + 1) by omega]

theorem emittedOf_emits (l : List LogRec) : emittedOf (l.map .emit) = l := by
  induction l with
  | nil => rfl
  | cons o os ih => simpa [emittedOf] using ih

theorem emittedOf_append' (a b : List HandlerEv) : emittedOf (a ++ b) = emittedOf a ++ emittedOf b := List.filterMap_append

theorem logNetEvs_append (a b : List LogAllEv) : logNetEvs (a ++ b) = logNetEvs a ++ logNetEvs b := List.filterMap_append
theorem hdlEvs_append (a b : List LogAllEv) : hdlEvs (a ++ b) = hdlEvs a ++ hdlEvs b := List.filterMap_append

theorem logNetEvs_net (l : List LogNetEv) : logNetEvs (l.map .net) = l := by
  induction l with
  | nil => rfl
  | cons x l ih => simpa [logNetEvs] using ih

theorem logNetEvs_hdl (l : List HandlerEv) : logNetEvs (l.map .hdl) = [] := by simp [logNetEvs]

theorem hdlEvs_hdl (l : List HandlerEv) : hdlEvs (l.map .hdl) = l := by
  induction l with
  | nil => rfl
  | cons x l ih => simpa [hdlEvs] using ih

theorem hdlEvs_net (l : List LogNetEv) : hdlEvs (l.map .net) = [] := by simp [hdlEvs]

theorem sees_hdl (L : Lib) (fmt lt) (E : LogEnv) (ms) (l : List HandlerEv) : ∀ a : LogAll, handlerSees L fmt lt E ms a (l.map .hdl) = l := by
  induction l with
  | nil => intro a; rfl
  | cons x l ih => intro a; simp only [List.map_cons, handlerSees, ih]; rfl

/-- A step, seen from both sides. -/
theorem all_step (L : Lib) (fmt lt) (E : LogEnv) (ms) (a : LogAll) (e : LogAllEv) :
    (a.step L fmt lt E ms e).1.net = (a.net.run L fmt lt (logNetEvs [e])).1 ∧ logNetOuts (a.step L fmt lt E ms e).2 = (a.net.run L fmt lt (logNetEvs [e])).2 ∧
    (a.step L fmt lt E ms e).1.hdl = (a.hdl.run E (handlerSees L fmt lt E ms a [e])).1 ∧ hdlOuts (a.step L fmt lt E ms e).2 = (a.hdl.run E (handlerSees L fmt lt E ms a [e])).2 ∧
    (a.step L fmt lt E ms e).1.next = a.next + (passedOf (ofServer (logNetOuts (a.step L fmt lt E ms e).2))).length := by
  cases e with
  | net e =>
    have h := emits_eq E ms { a with net := (a.net.step L fmt lt e).1 } (passedIn (a.net.step L fmt lt e).2)
    obtain ⟨h1, h2, h3, h4⟩ := h
    simp only [passedIn_eq] at h1 h2 h3 h4
    have hn : logNetOuts (a.step L fmt lt E ms (.net e)).2 = (a.net.step L fmt lt e).2 := by
      simp only [LogAll.step, logNetOuts_append, logNetOuts_net, logNetOuts_hdl, List.append_nil]
    rw [hn]
    simp only [LogAll.step, logNetEvs, List.filterMap_cons, List.filterMap_nil, LogNetSt.run, handlerSees, List.append_nil, hdlOuts_append, hdlOuts_net, hdlOuts_hdl, List.nil_append, passedIn_eq]
    exact ⟨h1, trivial, h3, h4, h2⟩
  | hdl e =>
    simp [LogAll.step, logNetEvs, LogNetSt.run, handlerSees, HandlerSt.run, logNetOuts_hdl, hdlOuts_hdl, passedOf, ofServer]

theorem all_run (L : Lib) (fmt lt) (E : LogEnv) (ms) (es : List LogAllEv) : ∀ a : LogAll,
    (a.run L fmt lt E ms es).1.net = (a.net.run L fmt lt (logNetEvs es)).1 ∧ logNetOuts (a.run L fmt lt E ms es).2 = (a.net.run L fmt lt (logNetEvs es)).2 ∧
    (a.run L fmt lt E ms es).1.hdl = (a.hdl.run E (handlerSees L fmt lt E ms a es)).1 ∧ hdlOuts (a.run L fmt lt E ms es).2 = (a.hdl.run E (handlerSees L fmt lt E ms a es)).2 ∧
    (emittedOf (handlerSees L fmt lt E ms a es)).Perm (ownRecords es ++ seenFrom ms a.next (passedOf (ofServer (logNetOuts (a.run L fmt lt E ms es).2)))) := by
  induction es with
  | nil => intro a; exact ⟨rfl, rfl, rfl, rfl, List.Perm.refl _⟩
  | cons e es ih =>
    intro a
    obtain ⟨h1, h2, h3, h4, h5⟩ := all_step L fmt lt E ms a e
    obtain ⟨i1, i2, i3, i4, i5⟩ := ih (a.step L fmt lt E ms e).1
    have hr : a.run L fmt lt E ms (e :: es) = (((a.step L fmt lt E ms e).1.run L fmt lt E ms es).1, (a.step L fmt lt E ms e).2 ++ ((a.step L fmt lt E ms e).1.run L fmt lt E ms es).2) := rfl
    have hn : logNetEvs (e :: es) = logNetEvs [e] ++ logNetEvs es := by
      rw [show e :: es = [e] ++ es from rfl, logNetEvs, List.filterMap_append]; rfl
    have hs : handlerSees L fmt lt E ms a (e :: es) = handlerSees L fmt lt E ms a [e] ++ handlerSees L fmt lt E ms (a.step L fmt lt E ms e).1 es := by
      simp [handlerSees]
    rw [hr, hn, hs, net_run_append, handler_run_append, logNetOuts_append, hdlOuts_append]
    refine ⟨?_, ?_, ?_, ?_, ?_⟩
    · rw [← h1]; exact i1
    · rw [← h1, ← h2]; exact congrArg _ i2
    · rw [← h3]; exact i3
    · rw [← h3, ← h4]; exact congrArg _ i4
    · have ho : ofServer (logNetOuts (a.step L fmt lt E ms e).2 ++ logNetOuts ((a.step L fmt lt E ms e).1.run L fmt lt E ms es).2) =
          ofServer (logNetOuts (a.step L fmt lt E ms e).2) ++ ofServer (logNetOuts ((a.step L fmt lt E ms e).1.run L fmt lt E ms es).2) := List.filterMap_append
      rw [emittedOf_append', ho, passedOf_append, seenFrom_append, ← h5]
      cases e with
      | hdl e =>
        have hq : passedOf (ofServer (logNetOuts (a.step L fmt lt E ms (.hdl e)).2)) = [] := by simp [LogAll.step, logNetOuts_hdl, passedOf, ofServer]
        rw [hq]
        have : ownRecords (.hdl e :: es) = emittedOf (handlerSees L fmt lt E ms a [.hdl e]) ++ ownRecords es := by
          simp only [ownRecords, hdlEvs, handlerSees, List.append_nil, List.filterMap_cons]
          exact emittedOf_append' [e] _
        rw [this, List.append_assoc]
        exact List.Perm.append_left _ i5
      | net e =>
        have hq : logNetOuts (a.step L fmt lt E ms (.net e)).2 = (a.net.step L fmt lt e).2 := by
          simp only [LogAll.step, logNetOuts_append, logNetOuts_net, logNetOuts_hdl, List.append_nil]
        rw [hq]
        have h6 : emittedOf (handlerSees L fmt lt E ms a [.net e]) = seenFrom ms a.next (passedOf (ofServer (a.net.step L fmt lt e).2)) := by
          simp only [handlerSees, List.append_nil, emittedOf_emits]
        have h7 : ownRecords (.net e :: es) = ownRecords es := rfl
        rw [h6, h7]
        refine (List.Perm.append_left _ i5).trans ?_
        rw [← List.append_assoc, ← List.append_assoc]
        exact List.Perm.append_right _ List.perm_append_comm

theorem all_run_append (L : Lib) (fmt lt) (E : LogEnv) (ms) (es fs : List LogAllEv) : ∀ a : LogAll,
    a.run L fmt lt E ms (es ++ fs) = (((a.run L fmt lt E ms es).1.run L fmt lt E ms fs).1, (a.run L fmt lt E ms es).2 ++ ((a.run L fmt lt E ms es).1.run L fmt lt E ms fs).2) := by
  induction es with
  | nil => intro a; simp [LogAll.run]
  | cons e es ih => intro a; simp [LogAll.run, ih]

/-- Without a call of `flush_records` there is none in progress. -/
theorem no_flush (E : LogEnv) : ∀ (es : List HandlerEv) (s : HandlerSt), s.flushes = [] → .flush ∉ es → (s.run E es).1.flushes = [] := by
  intro es
  induction es with
  | nil => intro s h _; exact h
  | cons e es ih =>
    intro s h hf
    refine ih _ ?_ (fun hm => hf (by simp [hm]))
    cases e with
    | tick d => exact h
    | emit r => exact h
    | flush => exact absurd (by simp) hf
    | write i => simp [HandlerSt.step, h]
    | poll =>
      simp only [HandlerSt.step, HandlerSt.pollStep]
      repeat' split
      all_goals first | exact h | (simp only [HandlerSt.put]; split <;> exact h)

theorem sees_flush {L : Lib} {fmt lt} {E : LogEnv} {ms} : ∀ (es : List LogAllEv) (a : LogAll), .hdl .flush ∉ es → .flush ∉ handlerSees L fmt lt E ms a es := by
  intro es
  induction es with
  | nil => intro a _; simp [handlerSees]
  | cons e es ih =>
    intro a hf hm
    simp only [handlerSees, List.mem_append] at hm
    rcases hm with hm | hm
    · cases e with
      | net e => simp at hm
      | hdl e => simp only [List.mem_singleton] at hm; exact hf (by simp [hm])
    · exact ih _ (fun h => hf (by simp [h])) hm

/-- With the levels unchanged, every record is compared with the same level. -/
theorem net_levels {L fmt lt} : ∀ (es : List LogNetEv) (n : LogNetSt), (∀ l, .setLevels l ∉ es) →
    ∀ rl ∈ readsOf (ofServer (n.run L fmt lt es).2), rl.2 = effectiveLevel n.srv.levels := by
  have hsrv : ∀ (n : LogNetSt) (f : LogSrvEv), (∀ l, f ≠ .setLevels l) → (n.serverStep lt f).1.srv.levels = n.srv.levels ∧
      ∀ rl ∈ readsOf (ofServer (n.serverStep lt f).2), rl.2 = effectiveLevel n.srv.levels := by
    intro n f hf
    have ho : ofServer (n.serverStep lt f).2 = (n.srv.step lt f).2 := by
      simp only [LogNetSt.serverStep, ofServer, List.filterMap_map]
      induction (n.srv.step lt f).2 with
      | nil => rfl
      | cons o os ih => simpa using ih
    rw [ho]
    cases f with
    | arrive m => exact ⟨rfl, by simp [LogSrvSt.step, readsOf]⟩
    | setLevels l => exact absurd rfl (hf l)
    | stop => exact ⟨rfl, by simp [LogSrvSt.step, readsOf]⟩
    | go =>
      simp only [LogNetSt.serverStep, LogSrvSt.step, LogSrvSt.go]
      repeat' split
      all_goals simp [readsOf]
  intro es
  induction es with
  | nil => intro n _; simp [LogNetSt.run, ofServer, readsOf]
  | cons e es ih =>
    intro n hl rl hrl
    have hst : (n.step L fmt lt e).1.srv.levels = n.srv.levels ∧ ∀ rl ∈ readsOf (ofServer (n.step L fmt lt e).2), rl.2 = effectiveLevel n.srv.levels := by
      cases e with
      | «at» i e =>
        refine ⟨rfl, ?_⟩
        have : ofServer (n.step L fmt lt (.at i e)).2 = [] := by simp [LogNetSt.step, ofServer]
        rw [this]; simp [readsOf]
      | deliver i =>
        simp only [LogNetSt.step]
        split
        · exact ⟨rfl, by simp [ofServer, readsOf]⟩
        · rename_i w r _
          exact hsrv { n with chan := fun j => if j = i then r else n.chan j } (.arrive (some w)) (by simp)
      | serve => exact hsrv n .go (by simp)
      | setLevels l => exact absurd (by simp) (hl l)
      | stop => exact hsrv n .stop (by simp)
    have hr : ofServer (n.run L fmt lt (e :: es)).2 = ofServer (n.step L fmt lt e).2 ++ ofServer ((n.step L fmt lt e).1.run L fmt lt es).2 := by
      simp only [LogNetSt.run]; exact List.filterMap_append
    rw [hr, readsOf_append, List.mem_append] at hrl
    rcases hrl with hrl | hrl
    · exact hst.2 rl hrl
    · rw [← hst.1]; exact ih _ (fun l h => hl l (by simp [h])) rl hrl

end Verif
