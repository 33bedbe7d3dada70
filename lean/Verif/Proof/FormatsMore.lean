import Verif.Proof.FormatsJson
import Verif.Proof.Writable
/-!
# Numbers as bytes; incomplete messages
-/
namespace Verif

theorem ascii_digit_bytes : ∀ d < 10, (UInt8.ofNat (Nat.digitChar d).toNat < 128 && !(28 ≤ UInt8.ofNat (Nat.digitChar d).toNat && UInt8.ofNat (Nat.digitChar d).toNat ≤ 31)) = true ∧
    Char.ofNat (UInt8.ofNat (Nat.digitChar d).toNat).toNat = Nat.digitChar d := by decide

theorem toDigits_bytes {n : Nat} {c : Char} (h : c ∈ Nat.toDigits 10 n) :
    (UInt8.ofNat c.toNat < 128 && !(28 ≤ UInt8.ofNat c.toNat && UInt8.ofNat c.toNat ≤ 31)) = true ∧ Char.ofNat (UInt8.ofNat c.toNat).toNat = c := by
  obtain ⟨d, hd, rfl⟩ := mem_toDigits (by omega) (by omega) n c h
  exact ascii_digit_bytes d hd

theorem map_bytes {l : List Char} (h : ∀ c ∈ l, Char.ofNat (UInt8.ofNat c.toNat).toNat = c) : (l.map fun c => UInt8.ofNat c.toNat).map (fun x => Char.ofNat x.toNat) = l := by
  rw [List.map_map]
  conv => rhs; rw [← List.map_id l]
  exact List.map_congr_left fun c hc => h c hc

theorem intText_bytes {i : Int} {c : Char} (h : c ∈ intText i) :
    (UInt8.ofNat c.toNat < 128 && !(28 ≤ UInt8.ofNat c.toNat && UInt8.ofNat c.toNat ≤ 31)) = true ∧ Char.ofNat (UInt8.ofNat c.toNat).toNat = c := by
  unfold intText at h
  split at h
  · rcases List.mem_cons.1 h with rfl | h
    · decide
    · exact toDigits_bytes h
  · exact toDigits_bytes h

theorem intText_space {i : Int} {c : Char} (h : c ∈ intText i) : isPySpace c = false := by
  unfold intText at h
  split at h
  · rcases List.mem_cons.1 h with rfl | h
    · decide
    · exact (toDigits_facts _ _ h).2.1
  · exact (toDigits_facts _ _ h).2.1

theorem intDigits_toDigits (n : Nat) : intDigits (Nat.toDigits 10 n) = some (Nat.toDigits 10 n) :=
  intDigits_all _ (toDigits_ne_nil n) fun c hc => ⟨(toDigits_facts n c hc).1, (toDigits_facts n c hc).2.2.2.2.2.2.1⟩

/-- `int(str(i).encode())` is `i` -/
theorem bytesInt_num (i : Int) : bytesInt (numBytes i) = some i := by
  have h1 : (numBytes i).all (fun x => x < 128 && !(28 ≤ x && x ≤ 31)) = true := by
    rw [List.all_eq_true]
    intro x hx
    obtain ⟨c, hc, rfl⟩ := List.mem_map.1 hx
    exact (intText_bytes hc).1
  have h2 : (numBytes i).map (fun x => Char.ofNat x.toNat) = intText i := map_bytes fun c hc => (intText_bytes hc).2
  have h3 : pyStrip (intText i) = intText i := pyStrip_id fun c hc => intText_space hc
  unfold bytesInt
  rw [if_pos h1, h2, h3]
  have hv : Nat.ofDigitChars 10 (Nat.toDigits 10 i.natAbs) 0 = i.natAbs := Nat.ofDigitChars_ten_toDigits
  by_cases hi : i < 0
  · rw [intText, if_pos hi]
    simp only [intDigits_toDigits, Option.map_some, hv, Option.some.injEq]
    omega
  · rw [intText, if_neg hi]
    have hd : ∀ c ∈ Nat.toDigits 10 i.natAbs, c ≠ '-' ∧ c ≠ '+' := fun c hc => ⟨(toDigits_facts _ c hc).2.2.2.2.1, (toDigits_facts _ c hc).2.2.2.2.2.1⟩
    split
    · next r hr => exact absurd rfl (hd '-' (by rw [hr]; simp)).1
    · next r hr => exact absurd rfl (hd '+' (by rw [hr]; simp)).2
    · simp only [intDigits_toDigits, Option.map_some, hv, Option.some.injEq]
      omega

/-! ## Reading goes from front to back -/

/-- What follows does not matter once an item is read, nor once there is an error other than the data being incomplete. -/
def Ext {α : Type} (f : Bytes → Except Exc (α × Bytes)) : Prop := ∀ b x,
  (∀ a r, f b = .ok (a, r) → f (b ++ x) = .ok (a, r ++ x)) ∧ ∀ e, f b = .error e → e ≠ .valueError → f (b ++ x) = .error e

theorem mpTake_ext (k : Nat) : Ext (mpTake k) := by
  intro b x
  constructor
  · intro a r h
    unfold mpTake at *
    split at h
    · simp at h
    · next hk =>
      simp only [Except.ok.injEq, Prod.mk.injEq] at h
      rw [if_neg (by simp; omega), List.take_append_of_le_length (by omega), List.drop_append_of_le_length (by omega), h.1, h.2]
  · intro e h hne
    unfold mpTake at h
    split at h
    · simp only [Except.error.injEq] at h; exact absurd h.symm hne
    · simp at h

theorem Ext.pure {α : Type} (a : α) : Ext fun b => .ok (a, b) := by
  intro b x
  constructor
  · intro a' r h
    simp only [Except.ok.injEq, Prod.mk.injEq] at h ⊢
    exact ⟨h.1, by rw [h.2]⟩
  · intro e h; simp at h

theorem Ext.error {α : Type} (e : Exc) : Ext (α := α) fun _ => .error e := by
  intro b x
  constructor
  · intro a r h; simp at h
  · intro e' h _; exact h

/-- one after the other -/
theorem Ext.bind {α β : Type} {f : Bytes → Except Exc (α × Bytes)} {g : α → Bytes → Except Exc (β × Bytes)} (hf : Ext f) (hg : ∀ a, Ext (g a)) {k : Bytes → Except Exc (β × Bytes)}
    (hk : ∀ b, k b = match f b with | .ok (a, r) => g a r | .error e => .error e) : Ext k := by
  intro b x
  have hf := hf b x
  rw [hk, hk]
  cases h : f b with
  | error e =>
    constructor
    · intro a r h; simp at h
    · intro e' h2 hne
      simp only [Except.error.injEq] at h2
      subst h2
      rw [hf.2 e h hne]
  | ok p =>
    obtain ⟨a, r⟩ := p
    rw [hf.1 a r h]
    exact hg a r x

theorem mpNum_ext {α : Type} (k : Nat) {f : Nat → Bytes → Except Exc (α × Bytes)} (hf : ∀ n, Ext (f n)) : Ext fun b => mpNum k b f :=
  Ext.bind (mpTake_ext k) (fun a => hf (ofBigEndian a)) fun b => by unfold mpNum; split <;> (simp_all; try rfl)

theorem mpStr_ext (n : Nat) : Ext (mpStr n) := by
  refine Ext.bind (mpTake_ext n) (g := fun x r => match utf8Text x with | some s => .ok (.str s, r) | none => .error .unicodeError) (fun a => ?_) fun b => by unfold mpStr; split <;> (simp_all; try rfl)
  cases utf8Text a with
  | none => exact Ext.error _
  | some s => exact Ext.pure _

theorem mpBin_ext (n : Nat) : Ext (mpBin n) :=
  Ext.bind (mpTake_ext n) (g := fun x r => .ok (.bin x, r)) (fun a => Ext.pure _) fun b => by unfold mpBin; split <;> (simp_all; try rfl)

theorem Ext.cons {α : Type} {f : Bytes → Except Exc (α × Bytes)} {t : UInt8} {g : Bytes → Except Exc (α × Bytes)} (hg : Ext g) (h : ∀ b, f (t :: b) = g b) (b x : Bytes) :
    (∀ a r, f (t :: b) = .ok (a, r) → f (t :: b ++ x) = .ok (a, r ++ x)) ∧ ∀ e, f (t :: b) = .error e → e ≠ .valueError → f (t :: b ++ x) = .error e := by
  rw [List.cons_append, h, h]
  exact hg b x

theorem ite_ext {α : Type} {c : Prop} [Decidable c] {f g : Bytes → Except Exc (α × Bytes)} (hf : Ext f) (hg : Ext g) : Ext fun b => if c then f b else g b := by
  by_cases h : c
  · simpa only [if_pos h] using hf
  · simpa only [if_neg h] using hg

set_option maxRecDepth 20000 in
theorem mpItem_ext (F : FmtLib) {arr map : Nat → Bytes → Except Exc (Wire × Bytes)} (ha : ∀ n, Ext (arr n)) (hm : ∀ n, Ext (map n)) : Ext (mpItem F arr map) := by
  intro b x
  cases b with
  | nil =>
    constructor
    · intro a r h; simp [mpItem] at h
    · intro e h hne
      simp only [mpItem, Except.error.injEq] at h
      exact absurd h.symm hne
  | cons t b =>
    refine Ext.cons (f := mpItem F arr map) (g := fun b => mpItem F arr map (t :: b)) ?_ (fun _ => rfl) b x
    simp only [mpItem]
    repeat' first
      | apply ite_ext
      | exact Ext.pure _
      | exact Ext.error _
      | exact ha _
      | exact hm _
      | exact mpStr_ext _
      | exact mpBin_ext _
      | exact ha
      | exact hm
      | exact fun _ => mpBin_ext _
      | exact fun _ => mpStr_ext _
      | exact fun _ => Ext.pure _
      | apply mpNum_ext

theorem mpItems_ext {α : Type} {f : Bytes → Except Exc (α × Bytes)} (hf : Ext f) : ∀ n, Ext (mpItems f n)
  | 0 => Ext.pure []
  | n + 1 => by
    refine Ext.bind hf (g := fun a r => match mpItems f n r with | .error e => .error e | .ok (l, r) => .ok (a :: l, r)) (fun a => ?_) fun b => by
      rw [mpItems]; split <;> (simp_all; try rfl)
    exact Ext.bind (mpItems_ext hf n) (g := fun l r => .ok (a :: l, r)) (fun l => Ext.pure _) fun b => by split <;> (simp_all; try rfl)

theorem mpPair_ext {f : Bytes → Except Exc (Wire × Bytes)} (hf : Ext f) : Ext (mpPair f) := by
  refine Ext.bind hf (g := fun k r => match f r with | .error e => .error e | .ok (w, r) => .ok ((k, w), r)) (fun a => ?_) fun b => by
      rw [mpPair]; split <;> (simp_all; try rfl)
  exact Ext.bind hf (g := fun w r => .ok ((a, w), r)) (fun l => Ext.pure _) fun b => by split <;> (simp_all; try rfl)

theorem mpRead_ext (F : FmtLib) : ∀ d, Ext (mpRead F d)
  | 0 => mpItem_ext F (fun _ => Ext.error _) fun _ => Ext.error _
  | d + 1 => by
    refine mpItem_ext F (fun n => ?_) fun n => ?_
    · exact Ext.bind (mpItems_ext (mpRead_ext F d) n) (g := fun l r => .ok (.arr l, r)) (fun l => Ext.pure _) fun b => by split <;> (simp_all; try rfl)
    · exact Ext.bind (mpItems_ext (mpPair_ext (mpRead_ext F d)) n) (g := fun l r => .ok (.map l, r)) (fun l => Ext.pure _) fun b => by split <;> (simp_all; try rfl)

/-- a message cut short is refused as incomplete, a message with something after it as having extra data -/
theorem mpLoad_cut (F : FmtLib) {w : Wire} (h : Ser.Writable .msgpack w) {p x : Bytes} (hx : x ≠ []) :
    (p ++ x = mpWrite w → mpLoad F p = .error .valueError) ∧ (p = mpWrite w → mpLoad F (p ++ x) = .error (.other "ExtraData")) := by
  have hw := mpRead_write F w mpStack [] (by unfold mpFine; rw [all_and, h.1, h.2.1]; rfl) h.2.2
  rw [List.append_nil] at hw
  constructor
  · intro e
    rw [← e] at hw
    have hext := mpRead_ext F mpStack p x
    unfold mpLoad
    cases hp : mpRead F mpStack p with
    | ok q =>
      obtain ⟨w', r⟩ := q
      rw [hext.1 w' r hp] at hw
      simp only [Except.ok.injEq, Prod.mk.injEq, List.append_eq_nil_iff] at hw
      exact absurd hw.2.2 hx
    | error e =>
      by_cases he : e = .valueError
      · subst he; rfl
      · rw [hext.2 e hp he] at hw
        simp at hw
  · intro e
    rw [← e] at hw
    have hext := (mpRead_ext F mpStack p x).1 _ _ hw
    unfold mpLoad
    rw [hext]
    cases x with
    | nil => exact absurd rfl hx
    | cons y x => rfl

end Verif
