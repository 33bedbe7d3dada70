import Verif.Proof.HandOut
import Verif.Proof.HandOutJson
import Verif.Props.Serializer
import Verif.Props.ServerExample
import Verif.Props.Refs
/-!
# C121: which references a message hands out, and what giving them back does

The vocabulary (`foreigns`, `fill`, `deletes`) is defined in `Verif.Spec.HandOut`.
-/
namespace Verif
open Ex

theorem flattened_proxied {E : SendEnv} {addr : String} (v : Val) (t : Refs) (h : v.flattened = true) :
    (proxied E addr t v).2.flattened = true := by
  obtain ⟨_, h2, _⟩ := proxied_flat (E := E) (addr := addr) v t h
  unfold Val.flattened at h ⊢
  rw [h2]
  cases hc : v.core <;> rw [hc] at h <;> simp_all [proxied]

mutual
theorem not_foreign_proxied {E : SendEnv} {addr : String} : ∀ (v : Val) (t : Refs),
    ¬ Foreign E.tys (proxied E addr t v).2
  | .list l, t => by simp only [proxied, Foreign]; exact not_foreignL_proxied l t
  | .tuple l, t => by simp only [proxied, Foreign]; exact not_foreignL_proxied l t
  | .dict d, t => by simp only [proxied, Foreign]; exact not_foreignD_proxied d t
  | .sub c v, t => by
    simp only [proxied]
    split
    · rename_i hf
      simp only [Foreign, flattened_proxied v t hf, if_true]
      exact not_foreign_proxied v t
    · rename_i hf
      split
      · rename_i hi; simp only [Foreign, hf, hi]; simp
      · obtain ⟨t1, oid, rid, hg⟩ := getProxy_succeeds E.idOf t (E.ident (.sub c v))
        simp [handOne, hg, Foreign]
  | .obj o ts, t => by
    simp only [proxied]
    split
    · rename_i hi; simp only [Foreign, hi]; simp
    · obtain ⟨t1, oid, rid, hg⟩ := getProxy_succeeds E.idOf t (E.ident (.obj o ts))
      simp [handOne, hg, Foreign]
  | .none, t | .bool _, t | .int _, t | .float _, t | .str _, t | .bytes _, t | .datetime _, t | .date _, t
  | .npScalar _, t | .ndarray _, t | .dtype _, t | .proxy _, t => by simp [proxied, Foreign]
theorem not_foreignL_proxied {E : SendEnv} {addr : String} : ∀ (l : List Val) (t : Refs),
    ¬ ForeignL E.tys (proxiedL E addr t l).2
  | [], t => by simp [proxiedL, ForeignL]
  | v :: vs, t => by
    simp only [proxiedL, ForeignL, not_or]
    exact ⟨not_foreign_proxied v t, not_foreignL_proxied vs _⟩
theorem not_foreignD_proxied {E : SendEnv} {addr : String} : ∀ (l : List (Val × Val)) (t : Refs),
    ¬ ForeignD E.tys (proxiedD E addr t l).2
  | [], t => by simp [proxiedD, ForeignD]
  | (k, v) :: vs, t => by
    simp only [proxiedD, ForeignD, not_or]
    exact ⟨not_foreign_proxied v t, not_foreignD_proxied vs _⟩
end

/-- **C121.** A message that is sent hands out exactly one new reference for every occurrence in it of an object
sent by proxy (including occurrences of one object twice), in order, and no other; their reference ids are new. The
receiver gets the message as if proxies holding these references had been written in the places of the objects. -/
theorem C121_handed_out_partial {L E R h t addr} (hl : Link L E R) (hr : Reach E.idOf h t) (ha : Alive E h)
    (hsv : E.server = some addr) {v t' w} (hp : Packable L E.tys v) (hs : Sendable R v)
    (hd : msgpackDumps E t v = (t', .ok w)) :
    ∃ xs h' v', Reach E.idOf h' t' ∧ outstanding h' = outstanding h ++ xs ∧ handedOut h' = handedOut h ++ xs ∧
      xs.map (·.obj) = (foreigns E.tys v).map E.ident ∧
      msgpackLoads R w = .ok v' ∧
      ¬ Foreign E.tys (fill E.tys v (List.zipWith (fun u x => x.toProxy addr (E.typeStr u)) (foreigns E.tys v) xs)).1 ∧
      Arrives E.tys (ByProxy E R t')
        (fill E.tys v (List.zipWith (fun u x => x.toProxy addr (E.typeStr u)) (foreigns E.tys v) xs)).1 v' := by
  obtain ⟨f1, f2⟩ := fac (hl.sender ▸ hl.laws) hl.types hsv 512 t v t' w (hl.sender ▸ hp) hd
  obtain ⟨g1, g2⟩ := proxied_fill (E := E) (addr := addr) v t
  obtain ⟨xs, h', r1, r2, r3, r4, r5, r6⟩ := handAll_reach (addr := addr) (foreigns E.tys v) h t hr ha
  rw [← g1, f1] at r1
  have hfill := g2 []
  rw [List.append_nil, r6] at hfill
  have hsend : Sendable R (proxied E addr t v).2 := by
    refine sendable_proxied ?_ v t hs
    intro t u
    obtain ⟨t1, oid, rid, hg⟩ := getProxy_succeeds E.idOf t (E.ident u)
    simp only [handOne, hg, Sendable]
    exact ⟨_, received_foreign hl.notOwner hsv⟩
  obtain ⟨v', e1, e2⟩ := C17_msgpack_transport hl r1 r2 hsend (f2 t')
  refine ⟨xs, h', v', r1, r3, r4, r5, e1, ?_, ?_⟩
  · rw [hfill]; exact not_foreign_proxied v t
  · rw [hfill]; exact e2

/-- **C121** for JSON: the same, for the objects that JSON sends by proxy. -/
theorem C121_handed_out_json_partial {L E R h t addr} (hl : Link L E R) (hr : Reach E.idOf h t) (ha : Alive E h)
    (hsv : E.server = some addr) {v t' w} (hp : JPackable L E.tys v) (hs : JSendable R v)
    (hd : jsonDumps E t v = (t', .ok w)) :
    ∃ xs h' v', Reach E.idOf h' t' ∧ outstanding h' = outstanding h ++ xs ∧ handedOut h' = handedOut h ++ xs ∧
      xs.map (·.obj) = (jforeigns E.tys v).map E.ident ∧
      jsonLoads R w = .ok v' ∧
      ¬ JForeign E.tys (jfill E.tys v (List.zipWith (fun u x => x.toProxy addr (E.typeStr u)) (jforeigns E.tys v) xs)).1 ∧
      JArrives L E.tys (ByProxy E R t')
        (jfill E.tys v (List.zipWith (fun u x => x.toProxy addr (E.typeStr u)) (jforeigns E.tys v) xs)).1 v' := by
  obtain ⟨f1, f2⟩ := jfac hl.types hsv 1000 t v t' w (hl.sender ▸ hp) hd
  obtain ⟨g1, g2⟩ := jproxied_fill (E := E) (addr := addr) v t
  obtain ⟨xs, h', r1, r2, r3, r4, r5, r6⟩ := handAll_reach (addr := addr) (jforeigns E.tys v) h t hr ha
  rw [← g1, f1] at r1
  have hfill := g2 []
  rw [List.append_nil, r6] at hfill
  have hsend : JSendable R (jproxied E addr t v).2 := by
    refine jsendable_proxied ?_ v t hs
    intro t u
    obtain ⟨t1, oid, rid, hg⟩ := getProxy_succeeds E.idOf t (E.ident u)
    simp only [handOne, hg, JSendable]
    exact ⟨_, received_foreign hl.notOwner hsv⟩
  obtain ⟨v', e1, e2⟩ := C18_json_transport hl r1 r2 hsend (f2 t')
  refine ⟨xs, h', v', r1, r3, r4, r5, e1, ?_, ?_⟩
  · rw [hfill]; exact not_jforeign_proxied v t
  · rw [hfill]; exact e2

theorem deletes_reach {idOf : Obj → Nat} : ∀ (ys : List Handle) (h : RefHistory) (t : Refs), Reach idOf h t →
    (∀ y ∈ ys, y ∈ outstanding h) → ys.Pairwise (fun x y => x.rid ≠ y.rid) →
    ∃ h', Reach idOf h' (t.runOps idOf (deletes ys)) ∧
      outstanding h' = (outstanding h).filter (fun x => ¬ ∃ y ∈ ys, x.oid = y.oid ∧ x.rid = y.rid) ∧
      h' = h ++ (deletes ys).map (fun op => (op, RefOut.deleted))
  | [], h, t, hr, _, _ => ⟨h, hr, (List.filter_eq_self.2 (by simp)).symm, by simp [deletes]⟩
  | y :: ys, h, t, hr, hm, hpw => by
    have hdel := (C05_delete_succeeds_iff hr y.oid y.rid).2 ⟨y, hm y (by simp), rfl, rfl⟩
    have hr1 := Reach.step (.delete y.oid y.rid) hr trivial
    rw [hdel] at hr1
    rw [List.pairwise_cons] at hpw
    obtain ⟨h', g1, g2, g3⟩ := deletes_reach ys _ _ hr1
      (fun z hz => by
        rw [outstanding_append_del]
        refine List.mem_filter.2 ⟨hm z (by simp [hz]), decide_eq_true ?_⟩
        rintro ⟨_, he⟩; exact hpw.1 z hz he.symm) hpw.2
    refine ⟨h', g1, ?_, ?_⟩
    · rw [g2, outstanding_append_del, List.filter_filter]
      apply List.filter_congr
      intro x _
      rw [Bool.eq_iff_iff]
      simp only [Bool.and_eq_true, decide_eq_true_eq, List.mem_cons, not_exists, not_and]
      constructor
      · rintro ⟨a, b⟩ z (rfl | hz) e
        · exact b e
        · exact a z hz e
      · intro a
        exact ⟨fun z hz => a z (Or.inr hz), a y (Or.inl rfl)⟩
    · rw [g3]; simp [deletes]

/-- **C121.** Giving back each of these references once, in any order, always succeeds, and leaves the table
answering every request as before the message was sent: nothing else is released, nothing of the message is
kept. -/
theorem C121_given_back_partial {idOf h t h' t' xs} (hr : Reach idOf h t) (hr' : Reach idOf h' t')
    (ho : outstanding h' = outstanding h ++ xs) (hh : handedOut h' = handedOut h ++ xs)
    {ys : List Handle} (hy : ys.Perm xs) :
    Reach idOf (h' ++ (deletes ys).map (fun op => (op, RefOut.deleted))) (t'.runOps idOf (deletes ys)) ∧
    outstanding (h' ++ (deletes ys).map (fun op => (op, RefOut.deleted))) = outstanding h ∧
    ∀ oid, (t'.runOps idOf (deletes ys)).lookup oid = t.lookup oid := by
  have hd := C02_ref_ids_distinct hr'
  rw [hh, List.pairwise_append] at hd
  obtain ⟨_, d2, d3⟩ := hd
  have d4 : ys.Pairwise (fun x y => x.rid ≠ y.rid) := d2.perm hy.symm (fun h e => h e.symm)
  obtain ⟨h2, g1, g2, g3⟩ := deletes_reach ys h' t' hr'
    (fun y hyy => by rw [ho]; exact List.mem_append_right _ (hy.mem_iff.1 hyy)) d4
  subst g3
  have hout : outstanding (h' ++ (deletes ys).map (fun op => (op, RefOut.deleted))) = outstanding h := by
    rw [g2, ho, List.filter_append]
    rw [List.filter_eq_self.2, List.filter_eq_nil_iff.2, List.append_nil]
    · intro x hx
      simp only [decide_eq_true_eq, Classical.not_not]
      exact ⟨x, hy.mem_iff.2 hx, rfl, rfl⟩
    · intro x hx
      simp only [decide_eq_true_eq, not_exists, not_and]
      intro y hyy _ he
      exact d3 x (hr.inv.sub x hx) y (hy.mem_iff.1 hyy) he
  refine ⟨g1, hout, fun oid => ?_⟩
  cases hlk : t.lookup oid with
  | ok o =>
    refine (C01_resolvable_iff_outstanding g1 oid o).2 ?_
    rw [hout]; exact (C01_resolvable_iff_outstanding hr oid o).1 hlk
  | error e =>
    have hn : ∀ x ∈ outstanding h, x.oid ≠ oid := by
      intro x hx he
      have := (C01_resolvable_iff_outstanding hr oid x.obj).2 ⟨x, hx, he, rfl⟩
      rw [hlk] at this; simp at this
    rw [C01_unresolvable_keyError g1 oid (by rw [hout]; exact hn), ← hlk, C01_unresolvable_keyError hr oid hn]

/-! ### When sending fails part way -/

theorem pack_second_fails {E : SendEnv} {n : Nat} {t t1 t2 : Refs} {u b : Val} {w : Wire} {e : Exc}
    (h1 : pack E n t u = (t1, .ok w)) (h2 : pack E n t1 b = (t2, .error e)) :
    pack E (n + 1) t (.list [u, b]) = (t2, .error e) := by
  simp only [pack, mapS, h1, h2]

/-- **C121**, what is false: a message that cannot be sent hands out references all the same. For every object
sent by proxy and every value `b` whose serialization fails: sending the two in a list raises, and the new reference
for the object stays in the table though nobody is told its number. -/
theorem C121_kept_after_failure {L E R h t addr} (hl : Link L E R) (hr : Reach E.idOf h t) (ha : Alive E h)
    (hsv : E.server = some addr) {o : Obj} {ts : List Ty} (hu : (Val.obj o ts).isinstance E.tys = false)
    {b : Val} (hb : ∀ t, ∃ e, pack E 511 t b = (t, .error e)) :
    ∃ e x h' t', msgpackDumps E t (.list [.obj o ts, b]) = (t', .error e) ∧ Reach E.idOf h' t' ∧
      outstanding h' = outstanding h ++ [x] ∧ x.obj = E.ident (.obj o ts) ∧ t'.lookup x.oid = .ok (E.ident (.obj o ts)) := by
  have hp : Packable E.lib E.tys (.obj o ts) := by simp only [Packable, hu]; simp
  obtain ⟨t1, w1, hd⟩ := (packT (hl.sender ▸ hl.laws) hl.types 511 t (.obj o ts) hp (by simp [Val.depth])).1
    (Or.inl (by simp [hsv]))
  obtain ⟨f1, -⟩ := fac (hl.sender ▸ hl.laws) hl.types hsv 511 t _ t1 w1 hp hd
  obtain ⟨g1, -⟩ := proxied_fill (E := E) (addr := addr) (.obj o ts) t
  obtain ⟨xs, h', r1, r2, r3, r4, r5, -⟩ := handAll_reach (addr := addr) (foreigns E.tys (.obj o ts)) h t hr ha
  rw [← g1, f1] at r1
  obtain ⟨e, he⟩ := hb t1
  simp only [foreigns, hu, Bool.false_eq_true, if_false, List.map_cons, List.map_nil] at r5
  cases xs with
  | nil => simp at r5
  | cons x xs =>
    simp only [List.map_cons, List.cons.injEq, List.map_eq_nil_iff] at r5
    obtain ⟨r5, rfl⟩ := r5
    refine ⟨e, x, h', t1, ?_, r1, r3, r5, ?_⟩
    · exact pack_second_fails hd he
    · exact (C01_resolvable_iff_outstanding r1 _ _).2 ⟨x, by rw [r3]; simp, rfl, r5⟩

theorem jpack_second_fails {E : SendEnv} {n : Nat} {t t1 t2 : Refs} {u b : Val} {w : Wire} {e : Exc}
    (h1 : jpack E n t u = (t1, .ok w)) (h2 : jpack E n t1 b = (t2, .error e)) :
    jpack E (n + 1) t (.list [u, b]) = (t2, .error e) := by
  rw [jpack_unfold]
  simp only [Val.core, mapS, h1, h2]

/-- **C121**, what is false, for JSON. -/
theorem C121_kept_after_failure_json {L E R h t addr} (hl : Link L E R) (hr : Reach E.idOf h t) (ha : Alive E h)
    (hsv : E.server = some addr) {o : Obj} {ts : List Ty} (hu : (Val.obj o ts).isinstance E.tys = false)
    {b : Val} (hb : ∀ t, ∃ e, jpack E 999 t b = (t, .error e)) :
    ∃ e x h' t', jsonDumps E t (.list [.obj o ts, b]) = (t', .error e) ∧ Reach E.idOf h' t' ∧
      outstanding h' = outstanding h ++ [x] ∧ x.obj = E.ident (.obj o ts) ∧ t'.lookup x.oid = .ok (E.ident (.obj o ts)) := by
  have hp : JPackable E.lib E.tys (.obj o ts) := by simp only [JPackable, hu]; simp
  obtain ⟨t1, w1, hd⟩ := (jpackT (hl.sender ▸ hl.laws) hl.types 999 t (.obj o ts) hp (by simp [Val.jdepth])).1
    (Or.inl (by simp [hsv]))
  obtain ⟨f1, -⟩ := jfac hl.types hsv 999 t _ t1 w1 hp hd
  obtain ⟨g1, -⟩ := jproxied_fill (E := E) (addr := addr) (.obj o ts) t
  obtain ⟨xs, h', r1, r2, r3, r4, r5, -⟩ := handAll_reach (addr := addr) (jforeigns E.tys (.obj o ts)) h t hr ha
  rw [← g1, f1] at r1
  obtain ⟨e, he⟩ := hb t1
  simp only [jforeigns, hu, Bool.false_eq_true, if_false, List.map_cons, List.map_nil] at r5
  cases xs with
  | nil => simp at r5
  | cons x xs =>
    simp only [List.map_cons, List.cons.injEq, List.map_eq_nil_iff] at r5
    obtain ⟨r5, rfl⟩ := r5
    refine ⟨e, x, h', t1, ?_, r1, r3, r5, ?_⟩
    · exact jpack_second_fails hd he
    · exact (C01_resolvable_iff_outstanding r1 _ _).2 ⟨x, by rw [r3]; simp, rfl, r5⟩

/-- The published value of the example: an object sent by proxy and one that cannot be pickled. -/
def exHalf : Val := .list [.obj 5 [.user 1], .obj 2 [.sharedMemory, .user 1]]

/-- The example run: the value is published, client A asks for it. -/
def exHalfRun : Srv × List Out := srv.run [.publish heap (.str "x") exHalf, msg 65 [1] 10 20 30 [1]]

/-- **C121**, the same at a whole server: the only message sent by the server is an error report, which holds no
proxy; yet the server now holds object 5 under object id 0, which it did not before. -/
theorem C121_negation : ∃ w exc lines,
    exHalfRun.2 = [.accept [65] 1 "get_item" "msgpack", .send [65] .msgpack w, .done [65] 1 none] ∧
    msgpackLoads recvB w = .ok (.dict [(.str "action", .str "return"), (.str "req_id", .int 1), (.str "rval", .none),
      (.str "error", .tuple [.str exc, .list [.str lines, .str "Stack", .str " < exception caught here >\n", .str "Traceback"]])]) ∧
    srv.refs.lookup 0 = .error .keyError ∧ exHalfRun.1.refs.lookup 0 = .ok 5 := by
  refine ⟨_, _, _, rfl, rfl, rfl, ?_⟩
  decide +kernel

/-! ### A concrete message -/

/-- Object 5 twice and object 6, at different depths, among values. -/
def exOut : Val := .dict [(.str "a", .list [.obj 5 [.user 1], .int 3]), (.str "b", .tuple [.obj 6 [.user 1], .obj 5 [.user 1]])]

theorem exOut_packable : Packable lib sendA.tys exOut := by
  simp only [exOut, Packable, PackableD, PackableL,
    show (Val.obj 5 [.user 1]).isinstance sendA.tys = false from rfl, show (Val.obj 6 [.user 1]).isinstance sendA.tys = false from rfl]
  exact ⟨by simp [keyOk], by simp⟩

theorem exOut_sendable : Sendable recvB exOut := by
  simp only [exOut, Sendable, SendableD, SendableL, KeysOk]
  exact ⟨⟨by simp [keyOk], by simp [keyEq], by simp [lookupStr, encodeKey]⟩, by simp⟩

example : (foreigns sendA.tys exOut).map sendA.ident = [5, 6, 5] := rfl

example : ∃ t' w, msgpackDumps sendA Refs.init exOut = (t', .ok w) ∧
    t'.lookup 0 = .ok 5 ∧ t'.lookup 1 = .ok 6 ∧
    (t'.runOps sendA.idOf (deletes [⟨0, 2, 5⟩, ⟨0, 0, 5⟩, ⟨1, 1, 6⟩])).lookup 0 = .error .keyError ∧
    (t'.runOps sendA.idOf (deletes [⟨0, 2, 5⟩, ⟨0, 0, 5⟩])).lookup 1 = .ok 6 :=
  ⟨_, _, rfl, rfl, rfl, rfl, rfl⟩

example : ∃ xs h' v', Reach sendA.idOf h' (msgpackDumps sendA Refs.init exOut).1 ∧ outstanding h' = [] ++ xs ∧
    xs.map (·.obj) = [5, 6, 5] ∧
    ∀ w, (msgpackDumps sendA Refs.init exOut).2 = .ok w → msgpackLoads recvB w = .ok v' := by
  obtain ⟨t', w, hd, -⟩ : ∃ t' w, msgpackDumps sendA Refs.init exOut = (t', .ok w) ∧ True := ⟨_, _, rfl, trivial⟩
  obtain ⟨xs, h', v', h1, h2, -, h4, h5, -⟩ := C121_handed_out_partial linkAB .init (alive _ _ rfl) rfl exOut_packable exOut_sendable hd
  rw [hd]
  exact ⟨xs, h', v', h1, h2, h4, fun w' hw => by simp only [Except.ok.injEq] at hw; rw [← hw]; exact h5⟩

namespace Ex

/-- The proxies of `exOut` are given back in another order. -/
example : ∃ xs : List Handle, xs.length = 3 ∧ ∀ oid, ((msgpackDumps sendA Refs.init exOut).1.runOps sendA.idOf (deletes xs.reverse)).lookup oid = Refs.init.lookup oid := by
  obtain ⟨t', w, hd, -⟩ : ∃ t' w, msgpackDumps sendA Refs.init exOut = (t', .ok w) ∧ True := ⟨_, _, rfl, trivial⟩
  obtain ⟨xs, h', v', h1, h2, h3, h4, h5, -⟩ := C121_handed_out_partial linkAB .init (alive _ _ rfl) rfl exOut_packable exOut_sendable hd
  rw [hd]
  refine ⟨xs, ?_, fun oid => (C121_given_back_partial .init h1 h2 h3 (List.reverse_perm xs)).2.2 oid⟩
  have := congrArg List.length h4
  rw [List.length_map, List.length_map] at this
  exact this
/-- `exHalf`: the second object cannot be pickled. -/
example := C121_kept_after_failure linkAB .init (alive _ _ rfl) rfl (o := 5) (ts := [.user 1]) rfl (b := .obj 2 [.sharedMemory, .user 1]) (fun _ => ⟨_, rfl⟩)

/-- By JSON, in a subclass of list too. -/
def exOutJ : Val := .dict [(.str "a", .sub 3 (.list [.obj 5 [.user 1], .int 3])), (.int 7, .tuple [.obj 6 [.user 1], .bytes [1], .obj 5 [.user 1]])]

theorem exOutJ_packable : JPackable lib sendA.tys exOutJ := by
  simp only [exOutJ, JPackable, JPackableD, JPackableL, show (Val.list [.obj 5 [.user 1], .int 3]).jflattened = true from rfl, if_true,
    show (Val.obj 5 [.user 1]).isinstance sendA.tys = false from rfl, show (Val.obj 6 [.user 1]).isinstance sendA.tys = false from rfl]
  exact ⟨by intro e he; simp only [List.mem_cons, List.not_mem_nil, or_false] at he; rcases he with rfl | rfl <;> exact ⟨_, rfl⟩, by simp⟩

theorem exOutJ_sendable : JSendable recvB exOutJ := by
  simp only [exOutJ, JSendable, JSendableD, JSendableL, JKeysOk]
  exact ⟨⟨by intro e he; simp only [List.mem_cons, List.not_mem_nil, or_false] at he; rcases he with rfl | rfl <;> exact ⟨_, rfl⟩,
    by simp [jkey, Val.core]; decide +kernel, by simp [jkey, Val.core, encodeKey]; decide +kernel⟩, by simp⟩

example : (jforeigns sendA.tys exOutJ).map sendA.ident = [5, 6, 5] := rfl
theorem exOutJ_dumps : ∃ t' w, jsonDumps sendA Refs.init exOutJ = (t', .ok w) := ⟨_, _, rfl⟩
example := C121_handed_out_json_partial linkAB .init (alive _ _ rfl) rfl exOutJ_packable exOutJ_sendable exOutJ_dumps.choose_spec.choose_spec
example := C121_kept_after_failure_json linkAB .init (alive _ _ rfl) rfl (o := 5) (ts := [.user 1]) rfl (b := .obj 2 [.sharedMemory, .user 1]) (fun _ => ⟨_, rfl⟩)

end Ex

end Verif
