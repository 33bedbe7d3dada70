import Verif.Spec.Family
/-!
# The end of a process: proofs
-/
namespace Verif

theorem FamSt.upd_procs (s : FamSt) (p q : Nat) (f : FamProc → FamProc) : (s.upd p f).procs q = if q = p then f (s.procs q) else s.procs q := rfl

theorem FamSt.upd_next (s : FamSt) (p : Nat) (f : FamProc → FamProc) : (s.upd p f).next = s.next := rfl

/-- Holds in every history. -/
structure FamSt.Inv (s : FamSt) : Prop where
  old : ∀ p c, c ∈ (s.procs p).children → c < s.next
  far : ∀ p, s.next ≤ p → s.procs p = {}
  todo : ∀ p l c, (s.procs p).pc = .exiting l → c ∈ l → c ∈ (s.procs p).children
  todo' : ∀ p d l c, (s.procs p).pc = .waiting d l → c ∈ l → c ∈ (s.procs p).children
  wait : ∀ p d l, (s.procs p).pc = .waiting d l → d ∈ (s.procs p).children
  exiting : ∀ p c l, c ∈ (s.procs p).children → (s.procs p).pc = .exiting l → c ∈ l ∨ (s.procs c).asked = true ∨ (s.procs c).pc = .gone
  waiting : ∀ p c d l, c ∈ (s.procs p).children → (s.procs p).pc = .waiting d l → c ∈ l ∨ (s.procs c).asked = true ∨ (s.procs c).pc = .gone
  gone : ∀ p c, c ∈ (s.procs p).children → (s.procs p).killed = false → (s.procs p).pc = .gone → (s.procs c).asked = true ∨ (s.procs c).pc = .gone

theorem fam_init : FamSt.init.Inv := by
  constructor <;> simp [FamSt.init]

theorem fam_step (s : FamSt) (e : FamEv) (h : s.Inv) : (s.step e).Inv := by
  obtain ⟨h1, h2, h3, h4, h5, h6, h7, h8⟩ := h
  have h9 : ∀ p c l, (s.procs p).pc = .exiting (c :: l) → c < s.next := fun p c l h => h1 p c (h3 p _ c h (by simp))
  constructor
  · cases e <;> simp only [FamSt.step] <;> (repeat' split) <;> (try simp only [FamSt.upd]) <;> grind
  · cases e <;> simp only [FamSt.step] <;> (repeat' split) <;> (try simp only [FamSt.upd]) <;> grind
  · cases e <;> simp only [FamSt.step] <;> (repeat' split) <;> (try simp only [FamSt.upd]) <;> grind
  · cases e <;> simp only [FamSt.step] <;> (repeat' split) <;> (try simp only [FamSt.upd]) <;> grind
  · cases e <;> simp only [FamSt.step] <;> (repeat' split) <;> (try simp only [FamSt.upd]) <;> grind
  · cases e <;> simp only [FamSt.step] <;> (repeat' split) <;> (try simp only [FamSt.upd]) <;> grind
  · cases e <;> simp only [FamSt.step] <;> (repeat' split) <;> (try simp only [FamSt.upd]) <;> grind
  · cases e <;> simp only [FamSt.step] <;> (repeat' split) <;> (try simp only [FamSt.upd]) <;> grind

theorem fam_run (s : FamSt) (es : List FamEv) (h : s.Inv) : (s.run es).Inv := by
  induction es generalizing s with
  | nil => exact h
  | cons e es ih => exact ih _ (fam_step s e h)

/-- Holds while nobody waits in vain and nobody is killed. -/
structure FamSt.Ordered (s : FamSt) : Prop where
  exiting : ∀ p c l, c ∈ (s.procs p).children → (s.procs p).pc = .exiting l → c ∈ l ∨ (s.procs c).pc = .gone
  waiting : ∀ p c d l, c ∈ (s.procs p).children → (s.procs p).pc = .waiting d l → c ∈ l ∨ c = d ∨ (s.procs c).pc = .gone
  gone : ∀ p c, c ∈ (s.procs p).children → (s.procs p).pc = .gone → (s.procs c).pc = .gone

theorem fam_ordered_step (s : FamSt) (e : FamEv) (h : s.Inv) (ho : s.Ordered) (hk : ∀ p, e ≠ .kill p) (ht : ∀ p, e ≠ .timeout p) : (s.step e).Ordered := by
  obtain ⟨h1, h2, h3, h4, h5, h6, h7, h8⟩ := h
  obtain ⟨g1, g2, g3⟩ := ho
  constructor
  · cases e <;> simp only [FamSt.step] <;> (repeat' split) <;> (try simp only [FamSt.upd]) <;> grind
  · cases e <;> simp only [FamSt.step] <;> (repeat' split) <;> (try simp only [FamSt.upd]) <;> grind
  · cases e <;> simp only [FamSt.step] <;> (repeat' split) <;> (try simp only [FamSt.upd]) <;> grind

theorem fam_ordered (s : FamSt) (es : List FamEv) (h : s.Inv) (ho : s.Ordered) (hk : ∀ p, .kill p ∉ es) (ht : ∀ p, .timeout p ∉ es) : (s.run es).Ordered := by
  induction es generalizing s with
  | nil => exact ho
  | cons e es ih =>
    refine ih _ (fam_step s e h) (fam_ordered_step s e h ho ?_ ?_) ?_ ?_
    · intro p he; exact hk p (by simp [he])
    · intro p he; exact ht p (by simp [he])
    · intro p he; exact hk p (by simp [he])
    · intro p he; exact ht p (by simp [he])

/-- The calls that are left are the first ones registered. -/
structure FamSt.LastFirst (s : FamSt) : Prop where
  exiting : ∀ p l, (s.procs p).pc = .exiting l → ∃ d, (s.procs p).children = l.reverse ++ d
  waiting : ∀ p c l, (s.procs p).pc = .waiting c l → ∃ d, (s.procs p).children = l.reverse ++ c :: d

theorem fam_lastFirst_step (s : FamSt) (e : FamEv) (h : s.Inv) (ho : s.LastFirst) : (s.step e).LastFirst := by
  obtain ⟨h1, h2, h3, h4, h5, h6, h7, h8⟩ := h
  obtain ⟨g1, g2⟩ := ho
  have g3 : ∀ p c l, (s.procs p).pc = .exiting (c :: l) → ∃ d, (s.procs p).children = l.reverse ++ c :: d := by
    intro p c l hp
    obtain ⟨d, hd⟩ := g1 p _ hp
    exact ⟨d, by simpa using hd⟩
  have g4 : ∀ p c l, (s.procs p).pc = .exiting (c :: l) → ∃ d, (s.procs p).children = l.reverse ++ d := by
    intro p c l hp
    obtain ⟨d, hd⟩ := g3 p c l hp
    exact ⟨_, hd⟩
  have g5 : ∀ p c l, (s.procs p).pc = .waiting c l → ∃ d, (s.procs p).children = l.reverse ++ d := by
    intro p c l hp
    obtain ⟨d, hd⟩ := g2 p c l hp
    exact ⟨_, hd⟩
  constructor
  · cases e <;> simp only [FamSt.step] <;> (repeat' split) <;> (try simp only [FamSt.upd]) <;> intro p' l' hl <;> (try split at hl) <;> first | exact g1 p' l' hl | grind | (subst_vars; cases hl; exact ⟨[], by simp⟩)
  · cases e <;> simp only [FamSt.step] <;> (repeat' split) <;> (try simp only [FamSt.upd]) <;> grind

theorem fam_lastFirst (s : FamSt) (es : List FamEv) (h : s.Inv) (ho : s.LastFirst) : (s.run es).LastFirst := by
  induction es generalizing s with
  | nil => exact ho
  | cons e es ih => exact ih _ (fam_step s e h) (fam_lastFirst_step s e h ho)

theorem fam_sum_lt (f g : Nat → Nat) (n p : Nat) (hp : p < n) (h : g p < f p) (ho : ∀ q, q ≠ p → g q = f q) :
    ((List.range n).map g).sum < ((List.range n).map f).sum := by
  induction n with
  | zero => omega
  | succ n ih =>
    rw [List.range_succ, List.map_append, List.map_append, List.sum_append, List.sum_append]
    by_cases hn : p = n
    · subst hn
      have : (List.range p).map g = (List.range p).map f := List.map_congr_left fun q hq => ho q (by have := List.mem_range.1 hq; omega)
      rw [this]; simp; exact h
    · have := ih (by omega)
      have := ho n (fun h => hn h.symm)
      simp; omega

theorem fam_left (s : FamSt) (e : FamEv) (hg : s.Goes e) : (s.step e).left < s.left := by
  have key : ∀ p s', p < s.next → s'.next = s.next → (s'.procs p).left < (s.procs p).left → (∀ q, q ≠ p → (s'.procs q).left = (s.procs q).left) →
      FamSt.left s' < s.left := by
    intro p s' hp hn h1 h2
    unfold FamSt.left
    rw [hn]
    exact fam_sum_lt _ _ _ p hp h1 h2
  cases e with
  | start | ask | finish | hang | kill => simp [FamSt.Goes] at hg
  | serve p =>
    obtain ⟨h1, h2, h3⟩ := hg
    simp only [FamSt.step, h1, h2, h3, and_self, if_true]
    refine key p _ h1 rfl ?_ ?_
    · simp [FamSt.upd, FamProc.left, h2]
    · intro q hq; simp [FamSt.upd, hq]
  | stop p =>
    obtain ⟨h1, c, l, h2⟩ := hg
    simp only [FamSt.step, h2]
    split
    · refine key p _ h1 rfl ?_ ?_
      · simp [FamSt.upd, FamProc.left, h2]
      · intro q hq; simp [FamSt.upd, hq]
    · refine key p _ h1 rfl ?_ ?_
      · simp [FamSt.upd, FamProc.left, h2]; omega
      · intro q hq; simp only [FamSt.upd, hq, if_false]; split <;> simp [FamProc.left]
  | ended p =>
    obtain ⟨h1, c, l, h2, h3⟩ := hg
    simp only [FamSt.step, h2, h3, if_true]
    refine key p _ h1 rfl ?_ ?_
    · simp [FamSt.upd, FamProc.left, h2]
    · intro q hq; simp [FamSt.upd, hq]
  | timeout p =>
    obtain ⟨h1, c, l, h2⟩ := hg
    simp only [FamSt.step, h2]
    refine key p _ h1 rfl ?_ ?_
    · simp [FamSt.upd, FamProc.left, h2]
    · intro q hq; simp [FamSt.upd, hq]
  | exit p =>
    obtain ⟨h1, h2⟩ := hg
    simp only [FamSt.step, h2]
    refine key p _ h1 rfl ?_ ?_
    · simp [FamSt.upd, FamProc.left, h2]
    · intro q hq; simp [FamSt.upd, hq]

theorem fam_goOn_length (s : FamSt) (es : List FamEv) (h : s.GoOn es) : es.length + (s.run es).left ≤ s.left := by
  induction es generalizing s with
  | nil => simp [FamSt.run]
  | cons e es ih =>
    have h1 := fam_left s e h.1
    have h2 := ih _ h.2
    simp only [FamSt.run, List.foldl_cons, List.length_cons] at *
    omega

/-- Going on changes neither who was killed nor that a program is over. -/
theorem fam_over (s : FamSt) (e : FamEv) (hg : s.Goes e) (r : Nat) (ho : (s.procs r).over) (hk : (s.procs r).killed = false) :
    ((s.step e).procs r).over ∧ ((s.step e).procs r).killed = false := by
  unfold FamProc.over at *
  cases e <;> simp only [FamSt.step, FamSt.Goes] at * <;> (repeat' split) <;> (try simp only [FamSt.upd]) <;> grind

theorem fam_over_run (s : FamSt) (es : List FamEv) (hg : s.GoOn es) (r : Nat) (ho : (s.procs r).over) (hk : (s.procs r).killed = false) :
    ((s.run es).procs r).over ∧ ((s.run es).procs r).killed = false := by
  induction es generalizing s with
  | nil => exact ⟨ho, hk⟩
  | cons e es ih => obtain ⟨h1, h2⟩ := fam_over s e hg.1 r ho hk; exact ih _ hg.2 h1 h2

theorem fam_still (s : FamSt) (h : s.Inv) (hs : s.Still) (p : Nat) (ho : (s.procs p).over ∨ (s.procs p).pc = .running ∧ (s.procs p).asked = true) :
    (s.procs p).pc = .gone := by
  have hp : p < s.next := by
    by_cases hp : p < s.next
    · exact hp
    · have := h.far p (by omega)
      rw [this] at ho
      simp [FamProc.over] at ho
  rcases ho with ⟨h1, h2⟩ | ⟨h1, h2⟩
  · rcases hc : (s.procs p).pc with _ | _ | l | ⟨c, l⟩ | _
    · exact absurd hc h1
    · exact absurd hc h2
    · rcases l with _ | ⟨c, l⟩
      · exact absurd ⟨hp, hc⟩ (hs (.exit p))
      · exact absurd ⟨hp, c, l, hc⟩ (hs (.stop p))
    · exact absurd ⟨hp, c, l, hc⟩ (hs (.timeout p))
    · rfl
  · exact absurd ⟨hp, h1, h2⟩ (hs (.serve p))

theorem fam_all_gone (s : FamSt) (h : s.Inv) (hs : s.Still) (r : Nat) (ho : (s.procs r).over) (hk : (s.procs r).killed = false)
    (hb : ∀ p, s.Below r p → (s.procs p).killed = false ∧ (s.procs p).pc ≠ .stuck) (c : Nat) (hc : s.Below r c) : (s.procs c).pc = .gone := by
  have child : ∀ p c, (s.procs p).pc = .gone → (s.procs p).killed = false → c ∈ (s.procs p).children → s.Below r c → (s.procs c).pc = .gone := by
    intro p c hp hpk hc hb'
    rcases h.gone p c hc hpk hp with ha | hg
    · refine fam_still s h hs c ?_
      by_cases hr : (s.procs c).pc = .running
      · exact .inr ⟨hr, ha⟩
      · exact .inl ⟨hr, (hb c hb').2⟩
    · exact hg
  induction hc with
  | child c hc => exact child r c (fam_still s h hs r (.inl ho)) hk hc (.child c hc)
  | further p c hp hc ih => exact child p c ih (hb p hp).1 hc (.further p c hp hc)

theorem fam_exists (n : Nat) : ∀ s : FamSt, s.left ≤ n → ∃ es, s.GoOn es ∧ (s.run es).Still := by
  induction n with
  | zero =>
    intro s h
    refine ⟨[], trivial, fun e he => ?_⟩
    have := fam_left s e he
    omega
  | succ n ih =>
    intro s h
    by_cases hs : s.Still
    · exact ⟨[], trivial, hs⟩
    · have : ∃ e, s.Goes e := Classical.byContradiction fun hn => hs fun e he => hn ⟨e, he⟩
      obtain ⟨e, he⟩ := this
      obtain ⟨es, h1, h2⟩ := ih (s.step e) (by have := fam_left s e he; omega)
      exact ⟨e :: es, ⟨he, h1⟩, h2⟩

/-- A daemon: nobody has it among its children, nobody asked it to close. -/
def FamSt.Alone (s : FamSt) (d : Nat) : Prop :=
  d < s.next ∧ (s.procs d).pc = .running ∧ (s.procs d).asked = false ∧ ∀ p, d ∉ (s.procs p).children

theorem fam_alone_step (s : FamSt) (e : FamEv) (h : s.Inv) (d : Nat) (ha : s.Alone d)
    (hn : e ≠ .ask d ∧ e ≠ .finish d ∧ e ≠ .hang d ∧ e ≠ .kill d) : (s.step e).Alone d := by
  obtain ⟨h1, h2, h3, h4, h5, h6, h7, h8⟩ := h
  have h9 : ∀ p c l, (s.procs p).pc = .exiting (c :: l) → c ∈ (s.procs p).children := fun p c l h => h3 p _ c h (by simp)
  unfold FamSt.Alone at *
  obtain ⟨a1, a2, a3, a4⟩ := ha
  refine ⟨?_, ?_, ?_, ?_⟩
  · cases e <;> simp only [FamSt.step] <;> (repeat' split) <;> (try simp only [FamSt.upd]) <;> grind
  · cases e <;> simp only [FamSt.step] <;> (repeat' split) <;> (try simp only [FamSt.upd]) <;> grind
  · cases e <;> simp only [FamSt.step] <;> (repeat' split) <;> (try simp only [FamSt.upd]) <;> grind
  · cases e <;> simp only [FamSt.step] <;> (repeat' split) <;> (try simp only [FamSt.upd]) <;> grind

theorem fam_alone (s : FamSt) (es : List FamEv) (h : s.Inv) (d : Nat) (ha : s.Alone d)
    (hn : ∀ e ∈ es, e ≠ .ask d ∧ e ≠ .finish d ∧ e ≠ .hang d ∧ e ≠ .kill d) : (s.run es).Alone d := by
  induction es generalizing s with
  | nil => exact ha
  | cons e es ih => exact ih _ (fam_step s e h) (fam_alone_step s e h d ha (hn e (by simp))) fun e he => hn e (by simp [he])

end Verif
