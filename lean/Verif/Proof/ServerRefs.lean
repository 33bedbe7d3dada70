import Verif.Proof.ServerTame
import Verif.Proof.Transport
/-! # The server's reference table changes only by handing out and deleting proxies -/
namespace Verif

/-- A relation between tables that holds across everything serializing may do. -/
structure Grows (E : SendEnv) (Rel : Refs → Refs → Prop) : Prop where
  refl : ∀ t, Rel t t
  trans : ∀ a b c, Rel a b → Rel b c → Rel a c
  get : ∀ t v, Rel t (t.getProxy E.idOf (E.ident v) []).1

section
variable {E : SendEnv} {Rel : Refs → Refs → Prop} (G : Grows E Rel)
include G

theorem mapS_grows {α β : Type} {f : Refs → α → Refs × Except Exc β} (hf : ∀ t a, Rel t (f t a).1) :
    ∀ (l : List α) t, Rel t (mapS f t l).1
  | [], t => G.refl t
  | a :: l, t => by
    have h1 := hf t a
    simp only [mapS]
    generalize f t a = y at h1 ⊢
    obtain ⟨t1, r⟩ := y
    cases r with
    | error e => exact h1
    | ok b =>
      have h2 := mapS_grows hf l t1
      simp only
      generalize mapS f t1 l = z at h2 ⊢
      obtain ⟨t2, r2⟩ := z
      cases r2 <;> exact G.trans _ _ _ h1 h2

theorem pairS_grows {β : Type} {f : Refs → Val → Refs × Except Exc β} (hf : ∀ t a, Rel t (f t a).1) (t : Refs) (kv : Val × Val) :
    Rel t (pairS f t kv).1 := by
  have h1 := hf t kv.1
  simp only [pairS]
  generalize f t kv.1 = y at h1 ⊢
  obtain ⟨t1, r⟩ := y
  cases r with
  | error e => exact h1
  | ok b =>
    have h2 := hf t1 kv.2
    simp only
    generalize f t1 kv.2 = z at h2 ⊢
    obtain ⟨t2, r2⟩ := z
    cases r2 <;> exact G.trans _ _ _ h1 h2

theorem jpair_grows {L : Lib} {f : Refs → Val → Refs × Except Exc Wire} (hf : ∀ t a, Rel t (f t a).1) (t : Refs) (kv : Val × Val) :
    Rel t (jpair L f t kv).1 := by
  have h1 := hf t kv.2
  simp only [jpair]
  split
  · exact G.refl t
  · generalize f t kv.2 = y at h1 ⊢
    obtain ⟨t1, r⟩ := y
    cases r <;> exact h1

theorem encode_grows (t : Refs) (v : Val) : Rel t (encode E t v).1 := by
  unfold encode
  split
  · exact G.refl t
  · split
    · exact G.refl t
    · have h := G.get t v
      generalize t.getProxy E.idOf (E.ident v) [] = y at h ⊢
      obtain ⟨t1, r⟩ := y
      cases r <;> exact h

theorem jencode_grows (t : Refs) (v : Val) : Rel t (jencode E t v).1 := by
  unfold jencode
  split
  · exact G.refl t
  · exact G.refl t
  · exact encode_grows G t v

theorem pack_grows : ∀ n t v, Rel t (pack E n t v).1 := by
  intro n
  induction n with
  | zero => intro t v; simpa [pack] using G.refl t
  | succ n ih =>
    intro t v
    have hM : ∀ (d : List (Val × Val)) t, Rel t (match mapS (pairS (pack E n)) t d with
      | (t', .ok m) => (t', Except.ok (Wire.map m))
      | (t', .error e) => (t', .error e)).1 := by
      intro d t
      have h := mapS_grows G (pairS_grows G ih) d t
      generalize mapS (pairS (pack E n)) t d = y at h ⊢
      obtain ⟨t1, r⟩ := y
      cases r <;> exact h
    have hD : Rel t (match encode E t v with
      | (t', .ok d) => (match mapS (pairS (pack E n)) t' d with
        | (t', .ok m) => (t', Except.ok (Wire.map m))
        | (t', .error e) => (t', .error e))
      | (t', .error e) => (t', .error e)).1 := by
      have h := encode_grows G t v
      generalize encode E t v = y at h ⊢
      obtain ⟨t1, r⟩ := y
      cases r with
      | error e => exact h
      | ok d => exact G.trans _ _ _ h (hM d t1)
    cases v <;> simp only [pack] <;> try (first | exact G.refl t | exact hD | exact hM _ t)
    · split
      · exact G.refl t
      · exact hD
    · rename_i l
      have h := mapS_grows G ih l t
      generalize mapS (pack E n) t l = y at h ⊢
      obtain ⟨t1, r⟩ := y
      cases r <;> exact h

theorem jpack_grows : ∀ n t v, Rel t (jpack E n t v).1 := by
  intro n
  induction n with
  | zero => intro t v; simpa [jpack] using G.refl t
  | succ n ih =>
    intro t v
    have hM : ∀ (d : List (Val × Val)) t, Rel t (match mapS (jpair E.lib (jpack E n)) t d with
      | (t', .ok m) => (t', Except.ok (Wire.map m))
      | (t', .error e) => (t', .error e)).1 := by
      intro d t
      have h := mapS_grows G (jpair_grows (L := E.lib) G ih) d t
      generalize mapS (jpair E.lib (jpack E n)) t d = y at h ⊢
      obtain ⟨t1, r⟩ := y
      cases r <;> exact h
    have hA : ∀ (l : List Val), Rel t (match mapS (jpack E n) t l with
      | (t', .ok m) => (t', Except.ok (Wire.arr m))
      | (t', .error e) => (t', .error e)).1 := by
      intro l
      have h := mapS_grows G ih l t
      generalize mapS (jpack E n) t l = y at h ⊢
      obtain ⟨t1, r⟩ := y
      cases r <;> exact h
    have hD : Rel t (match jencode E t v with
      | (t', .ok d) => (match mapS (jpair E.lib (jpack E n)) t' d with
        | (t', .ok m) => (t', Except.ok (Wire.map m))
        | (t', .error e) => (t', .error e))
      | (t', .error e) => (t', .error e)).1 := by
      have h := jencode_grows G t v
      generalize jencode E t v = y at h ⊢
      obtain ⟨t1, r⟩ := y
      cases r with
      | error e => exact h
      | ok d => exact G.trans _ _ _ h (hM d t1)
    simp only [jpack]
    split <;> try (first | exact G.refl t | exact hD | exact hA _ | exact hM _ t)
    split
    · exact G.refl t
    · exact hD

theorem dumps_grows (ser : Ser) (t : Refs) (v : Val) : Rel t (ser.dumps E t v).1 := by
  cases ser
  · exact pack_grows G _ t v
  · exact jpack_grows G _ t v

end

/-! ## Histories of the table -/

/-- The table operations the server may do: hand out proxies to identities of values, and delete. -/
def OpOk (ident : Val → Obj) : RefOp → Prop
  | .get o _ => ∃ v, o = ident v
  | .delete .. => True

/-- `Path idOf ident t t'`: table operations lead from `t` to `t'`. -/
def Path (idOf : Obj → Nat) (ident : Val → Obj) (t t' : Refs) : Prop :=
  ∃ ops : List RefOp, (∀ op ∈ ops, OpOk ident op) ∧ t' = ops.foldl (fun t op => (t.step idOf op).1) t

theorem Path.refl (idOf ident) (t : Refs) : Path idOf ident t t := ⟨[], by simp, rfl⟩
theorem Path.trans {idOf ident} {a b c : Refs} (h1 : Path idOf ident a b) (h2 : Path idOf ident b c) : Path idOf ident a c := by
  obtain ⟨o1, p1, rfl⟩ := h1
  obtain ⟨o2, p2, rfl⟩ := h2
  refine ⟨o1 ++ o2, ?_, by simp⟩
  intro op h
  rcases List.mem_append.1 h with h | h
  · exact p1 op h
  · exact p2 op h

theorem step_get_fst (idOf) (t : Refs) (o k) : (t.step idOf (.get o k)).1 = (t.getProxy idOf o k).1 := by
  simp only [Refs.step]
  generalize t.getProxy idOf o k = y
  obtain ⟨t1, r⟩ := y
  cases r <;> rfl

theorem step_delete_fst (idOf) (t : Refs) (o r) : (t.step idOf (.delete o r)).1 = (t.delete idOf o r).1 := by
  simp only [Refs.step]
  generalize t.delete idOf o r = y
  obtain ⟨t1, r⟩ := y
  cases r <;> rfl

theorem Path.get (idOf ident) (t : Refs) (v : Val) (k) : Path idOf ident t (t.getProxy idOf (ident v) k).1 :=
  ⟨[.get (ident v) k], by simp only [List.mem_singleton, forall_eq, OpOk]; exact ⟨v, rfl⟩, by simp [step_get_fst]⟩
theorem Path.delete (idOf ident) (t : Refs) (o r) : Path idOf ident t (t.delete idOf o r).1 :=
  ⟨[.delete o r], by simp [OpOk], by simp [step_delete_fst]⟩

theorem path_grows (H : Heap) (s : Srv) : Grows (s.sendEnv H) (Path H.idOf H.ident) :=
  ⟨Path.refl _ _, fun _ _ _ => Path.trans, fun t v => Path.get _ _ t v []⟩

section
variable {H : Heap} {Rel : Refs → Refs → Prop} (G : ∀ s : Srv, Grows (s.sendEnv H) Rel)
include G

theorem sendResult_grows (s : Srv) (c k v e b) : Rel s.refs (s.sendResult H c k v e b).1.refs := by
  unfold Srv.sendResult
  split
  · exact (G s).refl _
  · split
    · exact (G s).refl _
    · rename_i ser _
      split
      · exact (G s).refl _
      · have h := dumps_grows (G s) ser s.refs (replyDict k v e)
        generalize ser.dumps (s.sendEnv H) s.refs (replyDict k v e) = y at h ⊢
        obtain ⟨t, r⟩ := y
        cases r with
        | error e => exact h
        | ok w =>
          simp only
          split <;> exact h

theorem sendError_grows (s : Srv) (c k e) : Rel s.refs (s.sendError H c k e).1.refs := by
  unfold Srv.sendError
  split
  · exact (G s).refl _
  · exact sendResult_grows G ..

theorem proxyTo_grows (s : Srv) (v) : Rel s.refs (s.proxyTo H v).1.refs := by
  unfold Srv.proxyTo
  have h : Rel s.refs (s.refs.getProxy H.idOf (H.ident v) []).1 := (G s).get s.refs v
  generalize s.refs.getProxy H.idOf (H.ident v) [] = y at h ⊢
  obtain ⟨t, r⟩ := y
  cases r <;> exact h

theorem convert_grows (s : Srv) (rt v) : Rel s.refs (s.convert H rt v).1.refs := by
  unfold Srv.convert
  split
  · split
    · exact (G s).refl _
    · exact proxyTo_grows G ..
  · split
    · exact proxyTo_grows G ..
    · exact (G s).refl _

theorem respond_grows (s : Srv) (c k rt r) : Rel s.refs (s.respond H c k rt r).1.refs := by
  unfold Srv.respond
  split
  · cases r with
    | ok v =>
      simp only
      have h1 := convert_grows G s rt v
      generalize s.convert H rt v = y at h1 ⊢
      obtain ⟨s1, v1⟩ := y
      simp only at h1 ⊢
      have h2 := sendResult_grows G s1 c k v1 .none false
      generalize s1.sendResult H c k v1 .none = y at h2 ⊢
      obtain ⟨s2, r2⟩ := y
      cases r2 with
      | ok o => exact (G s).trans _ _ _ h1 h2
      | error e =>
        simp only at h2 ⊢
        have h3 := sendError_grows G s2 c k e
        generalize s2.sendError H c k e = y at h3 ⊢
        obtain ⟨s3, r3⟩ := y
        cases r3 <;> exact (G s).trans _ _ _ ((G s).trans _ _ _ h1 h2) h3
    | error e =>
      simp only
      have h3 := sendError_grows G s c k e
      generalize s.sendError H c k e = y at h3 ⊢
      obtain ⟨s3, r3⟩ := y
      cases r3 <;> exact h3
  · cases r <;> exact (G s).refl _

theorem finish_grows (s : Srv) (c k rt cl r) : Rel s.refs (s.finish H c k rt cl r).1.refs := by
  unfold Srv.finish
  have h := respond_grows G s c k rt r
  generalize s.respond H c k rt r = y at h ⊢
  obtain ⟨s1, o, x⟩ := y
  cases x with
  | none => simp only; split <;> exact h
  | some e => exact h

end

theorem sendResult_path (H : Heap) (s : Srv) (c k v e b) : Path H.idOf H.ident s.refs (s.sendResult H c k v e b).1.refs :=
  sendResult_grows (path_grows H) s c k v e b
theorem proxyTo_path (H : Heap) (s : Srv) (v) : Path H.idOf H.ident s.refs (s.proxyTo H v).1.refs := proxyTo_grows (path_grows H) s v
theorem convert_path (H : Heap) (s : Srv) (rt v) : Path H.idOf H.ident s.refs (s.convert H rt v).1.refs := convert_grows (path_grows H) s rt v
theorem finish_path (H : Heap) (s : Srv) (c k rt cl r) : Path H.idOf H.ident s.refs (s.finish H c k rt cl r).1.refs :=
  finish_grows (path_grows H) s c k rt cl r

theorem deleteAction_path (H : Heap) (s : Srv) (o) : Path H.idOf H.ident s.refs (s.deleteAction H o).1.refs := by
  unfold Srv.deleteAction
  split
  · exact Path.refl _ _ _
  · exact Path.refl _ _ _
  · rename_i oid _
    split
    · exact Path.refl _ _ _
    · split
      · exact Path.refl _ _ _
      · exact Path.refl _ _ _
      · rename_i rid _
        have h := Path.delete H.idOf H.ident s.refs oid rid
        generalize s.refs.delete H.idOf oid rid = y at h ⊢
        obtain ⟨t, r⟩ := y
        cases r <;> exact h

/-- the table after the start of an action -/
def Started.refs : Started → Refs
  | .finished s _ _ => s.refs
  | .running s _ _ => s.refs

theorem closeAction_refs (s : Srv) (c) : (s.closeAction c).1.refs = s.refs := by
  obtain ⟨b, h, _⟩ := closeAction_state s c
  rw [h]

theorem action_path (H : Heap) (s : Srv) (c a opts) : Path H.idOf H.ident s.refs (s.action H c a opts).refs := by
  unfold Srv.action
  split
  · split
    · exact Path.refl _ _ _
    · split <;> exact Path.refl _ _ _
  · exact Path.refl _ _ _
  · have h := deleteAction_path H s opts
    generalize s.deleteAction H opts = y at h ⊢
    obtain ⟨s1, r⟩ := y
    exact h
  · exact Path.refl _ _ _
  · split <;> exact Path.refl _ _ _
  · split
    · exact Path.refl _ _ _
    · split <;> exact Path.refl _ _ _
  · exact Path.refl _ _ _
  · have h := closeAction_refs s c
    generalize s.closeAction c = y at h ⊢
    obtain ⟨s1, o, r⟩ := y
    simp only [Started.refs] at h ⊢
    rw [h]; exact Path.refl _ _ _
  · exact Path.refl _ _ _

theorem process_path (H : Heap) (s : Srv) (c m) : Path H.idOf H.ident s.refs (s.process H c m).1.refs := by
  unfold Srv.process
  simp only
  split
  · exact finish_path H _ c _ _ _ _
  · split
    · exact finish_path H _ c _ _ _ _
    · split
      · exact finish_path H _ c _ _ _ _
      · rename_i opts _
        have h := action_path H { s with clients := s.clients.set c m.serType } c m.action opts
        generalize Srv.action H { s with clients := s.clients.set c m.serType } c m.action opts = y at h ⊢
        cases y with
        | finished s1 o r =>
          simp only [Started.refs] at h ⊢
          exact h.trans (finish_path H s1 c _ _ _ _)
        | running s1 o task => exact h

/-- **Every step of the server changes its table by table operations only.** -/
theorem step_path (s : Srv) (e : Ev) : Path e.heap.idOf e.heap.ident s.refs (s.step e).1.refs := by
  cases e with
  | recv H parts =>
    simp only [Srv.step, Ev.heap]
    split
    · exact Path.refl _ _ _
    split
    · exact Path.refl _ _ _
    · split
      · exact Path.refl _ _ _
      · exact process_path H s _ _
  | ret H r =>
    simp only [Srv.step, Ev.heap]
    split
    · exact Path.refl _ _ _
    · exact finish_path H _ _ _ _ _ _
  | publish H name v =>
    simp only [Srv.step, Ev.heap]
    split <;> exact Path.refl _ _ _
  | mkProxy H v kwds => exact Path.get _ _ s.refs v kwds

theorem reach_path {idOf : Obj → Nat} {ident : Val → Obj} 
    (hsent : ∀ u u', idOf (ident u) = idOf (ident u') → ident u = ident u') :
    ∀ (ops : List RefOp) (h : RefHistory) (t : Refs), (∀ op ∈ ops, OpOk ident op) → Reach idOf h t →
      (∀ x ∈ outstanding h, ∀ u, idOf x.obj = idOf (ident u) → x.obj = ident u) →
      ∃ h', Reach idOf (h ++ h') (ops.foldl (fun t op => (t.step idOf op).1) t) ∧
        ∀ x ∈ outstanding (h ++ h'), ∀ u, idOf x.obj = idOf (ident u) → x.obj = ident u
  | [], h, t, _, hr, hh => ⟨[], by simpa using hr, by simpa using hh⟩
  | op :: ops, h, t, ho, hr, hh => by
    have hop := ho op (by simp)
    have hd : IdsDistinct idOf h op := by
      cases op with
      | get o k => obtain ⟨v, rfl⟩ := hop; exact fun x hx he => hh x hx v he
      | delete o r => trivial
    have hr' := Reach.step op hr hd
    have hh' : ∀ x ∈ outstanding (h ++ [(op, (t.step idOf op).2)]), ∀ u, idOf x.obj = idOf (ident u) → x.obj = ident u := by
      intro x hx u hu
      generalize (t.step idOf op).2 = out at hx
      cases op with
      | get o k =>
        obtain ⟨v, rfl⟩ := hop
        cases out with
        | proxy oid rid =>
          rw [outstanding_append_get] at hx
          rcases List.mem_append.1 hx with hx | hx
          · exact hh x hx u hu
          · simp only [List.mem_singleton] at hx; subst hx; exact hsent v u hu
        | deleted =>
          have : outstanding (h ++ [(RefOp.get (ident v) k, RefOut.deleted)]) = outstanding h := by simp [outstanding]
          rw [this] at hx; exact hh x hx u hu
        | raised e => rw [outstanding_append_raised] at hx; exact hh x hx u hu
      | delete o r =>
        cases out with
        | proxy oid rid =>
          have : outstanding (h ++ [(RefOp.delete o r, RefOut.proxy oid rid)]) = outstanding h := by simp [outstanding]
          rw [this] at hx; exact hh x hx u hu
        | deleted =>
          rw [outstanding_append_del] at hx
          exact hh x (List.mem_filter.1 hx).1 u hu
        | raised e => rw [outstanding_append_raised] at hx; exact hh x hx u hu
    obtain ⟨h', hr2, hm⟩ := reach_path hsent ops _ _ (fun o h => ho o (by simp [h])) hr' hh'
    refine ⟨(op, (t.step idOf op).2) :: h', ?_, ?_⟩
    · simpa using hr2
    · simpa using hm

theorem live_out {H : Heap} {h t} (hr : Reach H.idOf h t) (hl : LiveHeap H t) :
    ∀ x ∈ outstanding h, ∀ u, H.idOf x.obj = H.idOf (H.ident u) → x.obj = H.ident u := by
  intro x hx u hu
  obtain ⟨s, hs, _⟩ := (hr.inv.out x).1 hx
  exact hl.held _ _ _ hs u hu

/-- the table was reached by a history and its objects are alive with the values of the step -/
def LiveTable (H : Heap) (t : Refs) : Prop :=
  (∀ u u', H.idOf (H.ident u) = H.idOf (H.ident u') → H.ident u = H.ident u') ∧
  ∃ h, Reach H.idOf h t ∧ ∀ x ∈ outstanding h, ∀ u, H.idOf x.obj = H.idOf (H.ident u) → x.obj = H.ident u

theorem LiveTable.of_reach {H : Heap} {h t} (hr : Reach H.idOf h t) (hl : LiveHeap H t) : LiveTable H t :=
  ⟨hl.sent, h, hr, live_out hr hl⟩

theorem LiveTable.path {H : Heap} {t t'} (h : LiveTable H t) (hp : Path H.idOf H.ident t t') : LiveTable H t' := by
  obtain ⟨hs, h0, hr, hh⟩ := h
  obtain ⟨ops, h1, rfl⟩ := hp
  obtain ⟨h', h2, h3⟩ := reach_path hs ops h0 t h1 hr hh
  exact ⟨hs, _, h2, h3⟩

theorem LiveTable.ok {H : Heap} {t} (h : LiveTable H t) (s : Srv) : ∃ h0, Reach (s.sendEnv H).idOf h0 t ∧ Alive (s.sendEnv H) h0 := by
  obtain ⟨hs, h0, hr, hh⟩ := h
  exact ⟨h0, hr, hs, hh⟩

theorem step_reach {idOf : Obj → Nat} {s : Srv} {e : Ev} {h} (hr : Reach idOf h s.refs) (hi : e.heap.idOf = idOf)
    (hl : LiveHeap e.heap s.refs) : ∃ h', Reach idOf (h ++ h') (s.step e).1.refs := by
  subst hi
  obtain ⟨ops, h1, h2⟩ := step_path s e
  obtain ⟨h', h3, _⟩ := reach_path hl.sent ops h s.refs h1 hr (live_out hr hl)
  exact ⟨h', by rw [h2]; exact h3⟩

theorem run_reach {idOf : Obj → Nat} : ∀ (es : List Ev) (s : Srv) (h : RefHistory), Reach idOf h s.refs → LiveRun idOf s es →
    ∃ h', Reach idOf (h ++ h') (s.run es).1.refs
  | [], s, h, hr, _ => ⟨[], by simpa [Srv.run] using hr⟩
  | e :: es, s, h, hr, hl => by
    obtain ⟨hi, hl1, hl2⟩ := hl
    obtain ⟨h1, hr1⟩ := step_reach hr hi hl1
    obtain ⟨h2, hr2⟩ := run_reach es (s.step e).1 (h ++ h1) hr1 hl2
    exact ⟨h1 ++ h2, by simpa [Srv.run] using hr2⟩

end Verif
