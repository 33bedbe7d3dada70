/-!
# Python runtime vocabulary used by the model

Exceptions as values and insertion-ordered dictionaries.
-/
namespace Verif

/-- Python exception classes that occur in the modelled code. `other n` is any further class named `n`
(user exceptions, `SystemExit`, `KeyboardInterrupt`, ...).
Raised for instance at /repo/teleprox/client.py:285, 319, 444, /repo/teleprox/server.py:223, 282 and /repo/teleprox/serializer.py:105. -/
inductive Exc where
  | keyError | typeError | valueError | attributeError | runtimeError | timeoutError
  | assertionError | importError | unicodeError | zmqError | connectionRefused
  | invalidStateError | pickleError | indexError
  | other (name : String)
  deriving DecidableEq, Repr

/-- `exc[0].__name__` as used in /repo/teleprox/server.py:330. -/
def Exc.name : Exc → String
  | .keyError => "KeyError"
  | .typeError => "TypeError"
  | .valueError => "ValueError"
  | .attributeError => "AttributeError"
  | .runtimeError => "RuntimeError"
  | .timeoutError => "TimeoutError"
  | .assertionError => "AssertionError"
  | .importError => "ImportError"
  | .unicodeError => "UnicodeDecodeError"
  | .zmqError => "ZMQError"
  | .connectionRefused => "ConnectionRefusedError"
  | .invalidStateError => "InvalidStateError"
  | .pickleError => "PicklingError"
  | .indexError => "IndexError"
  | .other n => n

/-- A Python `dict`: insertion-ordered association list. Keys are unique in every dictionary built with
the operations below (`Dict.WF`). Used for instance at /repo/teleprox/server.py:159-181. -/
abbrev Dict (κ ν : Type) := List (κ × ν)

namespace Dict
variable {κ ν : Type} [DecidableEq κ]

/-- `d.get(k)` / `d[k]` (`none` = missing). Used for instance at /repo/teleprox/server.py:99, 209. -/
def get? : Dict κ ν → κ → Option ν
  | [], _ => none
  | (k', v) :: d, k => if k' = k then some v else get? d k

/-- `d[k] = v`: in place if present, else appended. Used for instance at /repo/teleprox/server.py:115, 213, 275. -/
def set : Dict κ ν → κ → ν → Dict κ ν
  | [], k, v => [(k, v)]
  | (k', v') :: d, k, v => if k' = k then (k', v) :: d else (k', v') :: set d k v

/-- `del d[k]` / `d.pop(k)`. Used for instance at /repo/teleprox/server.py:125, 368 and /repo/teleprox/client.py:97, 550. -/
def erase : Dict κ ν → κ → Dict κ ν
  | [], _ => []
  | (k', v') :: d, k => if k' = k then erase d k else (k', v') :: erase d k

/-- `k in d`. Used for instance at /repo/teleprox/server.py:113 and /repo/teleprox/client.py:86. -/
def has (d : Dict κ ν) (k : κ) : Bool := (d.get? k).isSome

/-- `d.update(e)`. Used for instance at /repo/teleprox/proxy.py:228 and /repo/teleprox/serializer.py:118. -/
def update (d e : Dict κ ν) : Dict κ ν := e.foldl (fun acc kv => acc.set kv.1 kv.2) d

/-- keys in insertion order. Used for instance at /repo/teleprox/server.py:394. -/
def keys (d : Dict κ ν) : List κ := d.map (·.1)

/-- no key occurs twice. Holds of every dict, e.g. /repo/teleprox/server.py:159-181. -/
def WF (d : Dict κ ν) : Prop := (d.map (·.1)).Nodup

/-- `dict(pairs)`: later pairs overwrite earlier ones. Used for the maps read at /repo/teleprox/serializer.py:259, 291. -/
def ofPairs (ps : List (κ × ν)) : Dict κ ν := ps.foldl (fun acc kv => acc.set kv.1 kv.2) []

@[simp] theorem get?_nil (k : κ) : get? ([] : Dict κ ν) k = none := rfl

theorem get?_set (d : Dict κ ν) (k k' : κ) (v : ν) :
    (d.set k v).get? k' = if k = k' then some v else d.get? k' := by
  induction d with
  | nil => simp [set, get?]
  | cons a d ih =>
    obtain ⟨a, b⟩ := a
    simp only [set]
    split
    · subst_vars; simp only [get?]; split <;> rfl
    · simp only [get?, ih]; split <;> split <;> simp_all

theorem get?_erase (d : Dict κ ν) (k k' : κ) :
    (d.erase k).get? k' = if k = k' then none else d.get? k' := by
  induction d with
  | nil => simp [erase]
  | cons a d ih =>
    obtain ⟨a, b⟩ := a
    simp only [erase]
    split
    · subst_vars; simp only [get?, ih]; split <;> rfl
    · simp only [get?, ih]; split <;> split <;> simp_all

@[simp] theorem get?_set_self (d : Dict κ ν) (k : κ) (v : ν) : (d.set k v).get? k = some v := by
  simp [get?_set]

theorem get?_eq_none_iff (d : Dict κ ν) (k : κ) : d.get? k = none ↔ k ∉ d.map (·.1) := by
  induction d with
  | nil => simp
  | cons a d ih =>
    obtain ⟨a, b⟩ := a
    simp only [get?]
    split
    · simp_all
    · simp only [ih, List.map_cons, List.mem_cons]
      constructor
      · rintro h (h' | h')
        · exact absurd h'.symm ‹_›
        · exact h h'
      · intro h h'; exact h (Or.inr h')

theorem get?_some_mem {d : Dict κ ν} {k : κ} {v : ν} (h : d.get? k = some v) : (k, v) ∈ d := by
  induction d with
  | nil => simp at h
  | cons a d ih =>
    obtain ⟨a, b⟩ := a
    simp only [get?] at h
    split at h
    · subst_vars; simp_all
    · exact List.mem_cons_of_mem _ (ih h)

theorem get?_of_mem {d : Dict κ ν} (hd : d.WF) {k : κ} {v : ν} (h : (k, v) ∈ d) :
    d.get? k = some v := by
  induction d with
  | nil => simp at h
  | cons a d ih =>
    obtain ⟨a, b⟩ := a
    simp only [WF, List.map_cons, List.nodup_cons] at hd
    simp only [get?]
    rcases List.mem_cons.1 h with h | h
    · cases h; simp
    · have : a ≠ k := by
        rintro rfl
        exact hd.1 (List.mem_map.2 ⟨_, h, rfl⟩)
      simp [this, ih hd.2 h]

theorem keys_set (d : Dict κ ν) (k : κ) (v : ν) :
    (d.set k v).map (·.1) = if k ∈ d.map (·.1) then d.map (·.1) else d.map (·.1) ++ [k] := by
  induction d with
  | nil => simp [set]
  | cons a d ih =>
    obtain ⟨a, b⟩ := a
    simp only [set]
    split
    · subst_vars; simp
    · rename_i hne
      have hne' : ¬ k = a := fun h => hne h.symm
      by_cases hk : k ∈ d.map (·.1) <;> simp_all

theorem wf_set {d : Dict κ ν} (h : d.WF) (k : κ) (v : ν) : (d.set k v).WF := by
  unfold WF at *
  rw [keys_set]
  split
  · exact h
  · rename_i hk
    rw [List.nodup_append]
    refine ⟨h, by simp, ?_⟩
    intro a ha b hb
    simp at hb; subst hb
    rintro rfl; exact hk ha

theorem erase_sublist (d : Dict κ ν) (k : κ) : (d.erase k).Sublist d := by
  induction d with
  | nil => simp [erase]
  | cons a d ih =>
    obtain ⟨a, b⟩ := a
    simp only [erase]
    split
    · exact List.Sublist.cons _ ih
    · exact List.Sublist.cons_cons _ ih

theorem wf_erase {d : Dict κ ν} (h : d.WF) (k : κ) : (d.erase k).WF :=
  List.Nodup.sublist ((erase_sublist d k).map _) h

theorem mem_keys_iff {d : Dict κ ν} {k : κ} : k ∈ d.map (·.1) ↔ ∃ v, d.get? k = some v := by
  by_cases h : d.get? k = none
  · have := (get?_eq_none_iff d k).1 h
    simp only [h]; simp only [this]; simp
  · obtain ⟨v, hv⟩ := Option.ne_none_iff_exists'.1 h
    refine ⟨fun _ => ⟨v, hv⟩, fun _ => ?_⟩
    exact List.mem_map.2 ⟨_, get?_some_mem hv, rfl⟩

theorem set_of_not_mem {d : Dict κ ν} {k : κ} (h : k ∉ d.map (·.1)) (v : ν) : d.set k v = d ++ [(k, v)] := by
  induction d with
  | nil => rfl
  | cons a d ih =>
    obtain ⟨a, b⟩ := a
    simp only [List.map_cons, List.mem_cons, not_or] at h
    simp only [set]
    rw [if_neg (fun hh => h.1 hh.symm), ih h.2]; rfl

/-- building a dict from pairs with distinct keys keeps exactly these pairs -/
theorem ofPairs_wf {ps : List (κ × ν)} (h : (ps.map (·.1)).Nodup) : ofPairs ps = ps := by
  unfold ofPairs
  suffices H : ∀ (acc : Dict κ ν), ((acc ++ ps).map (·.1)).Nodup →
      ps.foldl (fun acc kv => acc.set kv.1 kv.2) acc = acc ++ ps by simpa using H [] (by simpa using h)
  clear h
  induction ps with
  | nil => simp
  | cons a ps ih =>
    intro acc hacc
    simp only [List.foldl_cons]
    have hna : a.1 ∉ acc.map (·.1) := by
      intro hm
      simp only [List.map_append, List.map_cons, List.nodup_append] at hacc
      exact hacc.2.2 _ hm _ (List.mem_cons_self ..) rfl
    rw [set_of_not_mem hna, ih]
    · simp
    · simpa using hacc

end Dict
/-- Equality of results of raising functions is decidable (used by examples only).
No code, e.g. for results of /repo/teleprox/client.py:227. -/
instance instDecidableEqExcept {ε α} [DecidableEq ε] [DecidableEq α] : DecidableEq (Except ε α)
  | .ok a, .ok b => decidable_of_iff (a = b) (by simp)
  | .error a, .error b => decidable_of_iff (a = b) (by simp)
  | .ok _, .error _ => isFalse (by simp)
  | .error _, .ok _ => isFalse (by simp)

end Verif
