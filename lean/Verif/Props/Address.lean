import Verif.Model.Address
/-!
# Client names (C41) and server addresses (C42)
-/
namespace Verif

/-! ## C41: client socket identities are unique -/

/-- A text is split in only one way at the first occurrence of a character. -/
theorem split_first {α : Type} {x : α} {a a' b b' : List α} (ha : x ∉ a) (ha' : x ∉ a') (h : a ++ x :: b = a' ++ x :: b') :
    a = a' ∧ b = b' := by
  induction a generalizing a' with
  | nil =>
    cases a' with
    | nil => simp at h; exact ⟨rfl, h⟩
    | cons y a' => simp at h; exact absurd (List.mem_cons.2 (.inl h.1)) ha'
  | cons y a ih =>
    cases a' with
    | nil => simp at h; exact absurd (List.mem_cons.2 (.inl h.1.symm)) ha
    | cons y' a' =>
      simp at h
      obtain ⟨rfl, h⟩ := h
      obtain ⟨rfl, rfl⟩ := ih (fun hh => ha (List.mem_cons_of_mem _ hh)) (fun hh => ha' (List.mem_cons_of_mem _ hh)) h
      exact ⟨rfl, rfl⟩

/-- A text is split in only one way at the last occurrence of a character. -/
theorem split_last {α : Type} {x : α} {a a' b b' : List α} (hb : x ∉ b) (hb' : x ∉ b') (h : a ++ x :: b = a' ++ x :: b') :
    a = a' ∧ b = b' := by
  have h' := congrArg List.reverse h
  simp only [List.reverse_append, List.reverse_cons, List.append_assoc, List.singleton_append] at h'
  obtain ⟨h1, h2⟩ := split_first (by simpa using hb) (by simpa using hb') h'
  exact ⟨List.reverse_inj.1 h2, List.reverse_inj.1 h1⟩

/-- C41: clients whose names are made of components without separators (no dot in the host and process names, no colon in the thread
name) have the same identity only if all components are the same. Partial: with dots or colons in the names it is not
so (`Ex.C41_fails`). -/
theorem C41_unique_partial (h p t a h' p' t' a' : List Char) (hh : '.' ∉ h) (hh' : '.' ∉ h') (hp : '.' ∉ p) (hp' : '.' ∉ p')
    (ht : ':' ∉ t) (ht' : ':' ∉ t') (he : clientName h p t a = clientName h' p' t' a') :
    h = h' ∧ p = p' ∧ t = t' ∧ a = a' := by
  simp only [clientName, List.append_assoc, List.cons_append] at he
  obtain ⟨h1, h2⟩ := split_first hh hh' he
  obtain ⟨h3, h4⟩ := split_first hp hp' h2
  obtain ⟨h5, h6⟩ := split_first ht ht' h4
  exact ⟨h1, h3, h5, h6⟩

/-- C41, clients of one server: with the same address, process and thread names without dots are enough; host names may
have dots and thread names colons. Partial: as above. -/
theorem C41_same_server_partial (h p t h' p' t' a : List Char) (hp : '.' ∉ p) (hp' : '.' ∉ p') (ht : '.' ∉ t) (ht' : '.' ∉ t')
    (he : clientName h p t a = clientName h' p' t' a) : h = h' ∧ p = p' ∧ t = t' := by
  simp only [clientName] at he
  have he := List.append_cancel_right he
  rw [show h ++ '.' :: p ++ '.' :: t = (h ++ '.' :: p) ++ '.' :: t by simp,
    show h' ++ '.' :: p' ++ '.' :: t' = (h' ++ '.' :: p') ++ '.' :: t' by simp] at he
  obtain ⟨h1, h2⟩ := split_last ht ht' he
  obtain ⟨h3, h4⟩ := split_last hp hp' h1
  exact ⟨h3, h4, h2⟩

theorem mem_toDigits {b : Nat} (hb : 1 < b) (hb' : b ≤ 16) : ∀ (n : Nat) (c : Char), c ∈ Nat.toDigits b n → ∃ d < b, c = Nat.digitChar d := by
  intro n
  induction n using Nat.strongRecOn with
  | ind n ih =>
    intro c h
    rw [Nat.toDigits_eq_if hb] at h
    split at h
    · simp at h; exact ⟨n, by assumption, h⟩
    · rcases List.mem_append.1 h with h | h
      · exact ih _ (Nat.div_lt_self (by omega) hb) c h
      · simp at h; exact ⟨n % b, Nat.mod_lt _ (by omega), h⟩

theorem digitChar_ne_dot (d : Nat) (h : d < 16) : Nat.digitChar d ≠ '.' := by
  have : ∀ d < 16, Nat.digitChar d ≠ '.' := by decide
  exact this d h

theorem toDigits_inj {b : Nat} (hb : 1 < b) (hb' : b ≤ 16) : ∀ (n m : Nat), Nat.toDigits b n = Nat.toDigits b m → n = m := by
  have dinj : ∀ d < 16, ∀ e < 16, Nat.digitChar d = Nat.digitChar e → d = e := by decide
  intro n
  induction n using Nat.strongRecOn with
  | ind n ih =>
    intro m h
    rw [Nat.toDigits_eq_if hb, Nat.toDigits_eq_if hb (n := m)] at h
    split at h <;> split at h
    · simp at h; exact dinj _ (by omega) _ (by omega) h
    · have := congrArg List.length h
      have := Nat.length_toDigits_pos (b := b) (n := m / b)
      simp at *
    · have := congrArg List.length h
      have := Nat.length_toDigits_pos (b := b) (n := n / b)
      simp at *
    · have h2 := List.append_inj' h (by simp)
      simp at h2
      have h3 := ih _ (Nat.div_lt_self (by omega) hb) _ h2.1
      have h4 := dinj _ (Nat.lt_of_lt_of_le (Nat.mod_lt n (by omega)) hb') _ (Nat.lt_of_lt_of_le (Nat.mod_lt m (by omega)) hb') h2.2
      rw [← Nat.div_add_mod n b, ← Nat.div_add_mod m b, h3, h4]

/-- C41 with the default names of processes and threads: clients of a server are told apart by host name, process id and thread id,
whatever the host names. Partial: the general claim fails for names set by the user. -/
theorem C41_default_partial (h h' a : List Char) (pid pid' tid tid' : Nat)
    (he : clientName h (defaultProcessName pid) (defaultThreadName tid) a =
      clientName h' (defaultProcessName pid') (defaultThreadName tid') a) : h = h' ∧ pid = pid' ∧ tid = tid' := by
  have hp : ∀ n, '.' ∉ defaultProcessName n := by
    intro n hm
    rcases List.mem_append.1 hm with hm | hm
    · revert hm; decide
    · obtain ⟨d, hd, hc⟩ := mem_toDigits (by decide) (by decide) _ _ hm
      exact digitChar_ne_dot d (by omega) hc.symm
  have ht : ∀ n, '.' ∉ defaultThreadName n := by
    intro n hm
    rcases List.mem_append.1 hm with hm | hm
    · revert hm; decide
    · obtain ⟨d, hd, hc⟩ := mem_toDigits (by decide) (by decide) _ _ hm
      exact digitChar_ne_dot d (by omega) hc.symm
  obtain ⟨h1, h2, h3⟩ := C41_same_server_partial _ _ _ _ _ _ _ (hp _) (hp _) (ht _) (ht _) he
  exact ⟨h1, toDigits_inj (by decide) (by decide) _ _ (List.append_cancel_left h2),
    toDigits_inj (by decide) (by decide) _ _ (List.append_cancel_left h3)⟩

/-! ## C42: server addresses are parsed exactly -/

/-- `s` is `tcp://h:d` followed by `e`, with a host of at least one character and no newline, and at least one digit. -/
def TcpAddress (s h d e : List Char) : Prop :=
  s = "tcp://".toList ++ h ++ ':' :: d ++ e ∧ h ≠ [] ∧ '\n' ∉ h ∧ d ≠ [] ∧ ∀ c ∈ d, isUniDigit c = true

theorem mem_takeWhile_imp {α : Type} {p : α → Bool} {l : List α} {x : α} (h : x ∈ l.takeWhile p) : p x = true := by
  have := List.all_takeWhile (p := p) (l := l)
  rw [List.all_eq_true] at this
  exact this x h

theorem matchPort_iff (r d : List Char) : matchPort r = some d ↔
    d ≠ [] ∧ (∀ c ∈ d, isUniDigit c = true) ∧ (r = d ∨ r = d ++ ['\n']) := by
  have hnl : isUniDigit '\n' = false := by decide +kernel
  constructor
  · intro h
    simp only [matchPort] at h
    split at h
    · rename_i hc
      obtain ⟨h1, h2⟩ := hc
      cases h
      refine ⟨h1, fun c hc => ?_, ?_⟩
      · exact mem_takeWhile_imp hc
      · have := List.takeWhile_append_dropWhile (p := isUniDigit) (l := r)
        rcases h2 with h2 | h2
        · left; rw [h2] at this; simpa using this.symm
        · right; rw [h2] at this; exact this.symm
    · cases h
  · rintro ⟨h1, h2, h3⟩
    have ht : ∀ e : List Char, (e = [] ∨ e = ['\n']) → (d ++ e).takeWhile isUniDigit = d ∧ (d ++ e).dropWhile isUniDigit = e := by
      intro e he
      rw [List.takeWhile_append_of_pos h2, List.dropWhile_append_of_pos h2]
      rcases he with rfl | rfl
      · simp
      · simp [hnl]
    rcases h3 with rfl | rfl
    · obtain ⟨a, b⟩ := ht [] (.inl rfl)
      rw [List.append_nil] at a b
      simp [matchPort, a, b, h1]
    · obtain ⟨a, b⟩ := ht ['\n'] (.inr rfl)
      simp [matchPort, a, b, h1]

theorem matchHostPort_sound (r : List Char) : ∀ (n : Nat) (h d : List Char), n ≤ (r.takeWhile (· ≠ '\n')).length →
    matchHostPort r n = some (h, d) → h ≠ [] ∧ '\n' ∉ h ∧ ∃ q, r = h ++ ':' :: q ∧ matchPort q = some d
  | 0, _, _, _, he => by simp [matchHostPort] at he
  | n + 1, h, d, hn, he => by
    have hrec := matchHostPort_sound r n h d (by omega)
    simp only [matchHostPort] at he
    split at he
    · rename_i q hq
      split at he
      · rename_i d' hd
        cases he
        have hlen : n + 1 ≤ r.length := Nat.le_trans hn ((List.takeWhile_sublist _).length_le)
        refine ⟨?_, ?_, q, ?_, hd⟩
        · intro h0
          have := congrArg List.length h0
          simp at this
          subst this
          simp at hlen
        · have hpre : r.take (n + 1) = (r.takeWhile (· ≠ '\n')).take (n + 1) := by
            conv => lhs; rw [← List.takeWhile_append_dropWhile (p := (· ≠ '\n')) (l := r)]
            rw [List.take_append_of_le_length hn]
          rw [hpre]
          intro hm
          have := mem_takeWhile_imp (List.mem_of_mem_take hm)
          simp at this
        · rw [← hq, List.take_append_drop]
      · exact hrec he
    · exact hrec he

theorem matchHostPort_complete (h q d : List Char) (hd : matchPort q = some d) (hne : h ≠ []) : ∀ (n : Nat), h.length ≤ n →
    n ≤ (h ++ ':' :: q).length → matchHostPort (h ++ ':' :: q) n = some (h, d)
  | 0, hn, _ => by simp at hn; exact absurd hn hne
  | n + 1, hn, hl => by
    simp only [matchHostPort]
    by_cases hlen : h.length = n + 1
    · have h1 : (h ++ ':' :: q).drop (n + 1) = ':' :: q := by rw [← hlen]; simp
      have h2 : (h ++ ':' :: q).take (n + 1) = h := by rw [← hlen]; simp
      rw [h1, h2]; simp [hd]
    · have hrec := matchHostPort_complete h q d hd hne n (by omega) (by omega)
      have hcol : ':' ∉ q := by
        obtain ⟨_, h2, h3⟩ := (matchPort_iff q d).1 hd
        have hc : isUniDigit ':' = false := by decide +kernel
        have hnd : ':' ∉ d := fun hm => by rw [h2 _ hm] at hc; cases hc
        rcases h3 with rfl | rfl
        · exact hnd
        · simp [hnd]
      have hsuf : ∀ x, x ∈ (h ++ ':' :: q).drop (n + 1) → x ∈ q := by
        intro x hx
        have : (h ++ ':' :: q).drop (n + 1) = q.drop (n - h.length) := by
          rw [show h ++ ':' :: q = (h ++ [':']) ++ q by simp, List.drop_append]
          have : (h ++ [':']).drop (n + 1) = [] := by
            apply List.drop_eq_nil_of_le; simp; omega
          rw [this]; simp
        rw [this] at hx
        exact List.mem_of_mem_drop hx
      split
      · rename_i q' hq'
        exact absurd (hsuf ':' (by rw [hq']; simp)) hcol
      · exact hrec

/-- What the regular expression accepts. -/
theorem matchTcp_iff (s h d : List Char) :
    matchTcp s = some (h, d) ↔ TcpAddress s h d [] ∨ TcpAddress s h d ['\n'] := by
  constructor
  · intro hm
    simp only [matchTcp] at hm
    split at hm
    · rename_i r
      obtain ⟨h1, h2, q, h3, h4⟩ := matchHostPort_sound r _ h d (Nat.le_refl _) hm
      obtain ⟨h5, h6, h7⟩ := (matchPort_iff q d).1 h4
      rcases h7 with h7 | h7
      · left; exact ⟨by rw [h3, h7]; simp, h1, h2, h5, h6⟩
      · right; exact ⟨by rw [h3, h7]; simp, h1, h2, h5, h6⟩
    · cases hm
  · have key : ∀ q, matchPort q = some d → h ≠ [] → '\n' ∉ h → s = "tcp://".toList ++ h ++ ':' :: q → matchTcp s = some (h, d) := by
      rintro q hq h1 h2 rfl
      have : "tcp://".toList ++ h ++ ':' :: q = 't' :: 'c' :: 'p' :: ':' :: '/' :: '/' :: (h ++ ':' :: q) := by simp
      rw [this]
      simp only [matchTcp]
      apply matchHostPort_complete h q d hq h1
      · rw [List.takeWhile_append_of_pos (by
          intro c hc; simp; rintro rfl; exact h2 hc)]
        simp
      · exact (List.takeWhile_sublist _).length_le
    rintro (⟨hs, h1, h2, h3, h4⟩ | ⟨hs, h1, h2, h3, h4⟩)
    · exact key d ((matchPort_iff _ _).2 ⟨h3, h4, .inl rfl⟩) h1 h2 (by rw [hs]; simp)
    · exact key (d ++ ['\n']) ((matchPort_iff _ _).2 ⟨h3, h4, .inr rfl⟩) h1 h2 (by rw [hs]; simp)

/-- C42: for every address `tcp://h:d`, `check_address` asks the network for the host `h` and the port with the digits `d`. Partial: so it
does, too, if the address ends with one more newline (`Ex.C42_fails`). -/
theorem C42_checked_partial (net : List Char → Nat → Connect) (s h d e : List Char) (hs : TcpAddress s h d e)
    (he : e = [] ∨ e = ['\n']) (hl : d.length ≤ 4300) :
    checkAddress net s = (checkTcpPort net h (d.foldl (fun n c => 10 * n + (uniDigit c).getD 0) 0)).map some := by
  have hm : matchTcp s = some (h, d) := by
    rw [matchTcp_iff]
    rcases he with rfl | rfl
    · exact .inl hs
    · exact .inr hs
  have hi : intOfDigits d = .ok (d.foldl (fun n c => 10 * n + (uniDigit c).getD 0) 0) := by
    rw [intOfDigits, if_neg (by omega)]
  simp only [checkAddress, hm, hi]
  cases checkTcpPort net h (d.foldl (fun n c => 10 * n + (uniDigit c).getD 0) 0) <;> rfl

/-- C42: an address that does not end with a newline and is not of the form `tcp://h:d` is reported as not checkable, without asking the
network. Partial: for addresses that end with a newline see `C42_checked_partial`. -/
theorem C42_unchecked_partial (net : List Char → Nat → Connect) (s : List Char) (hn : ∀ h d, ¬ TcpAddress s h d [])
    (hl : ∀ p, s ≠ p ++ ['\n']) : checkAddress net s = .ok none := by
  have : matchTcp s = none := by
    cases h : matchTcp s with
    | none => rfl
    | some r =>
      obtain ⟨h', d⟩ := r
      rcases (matchTcp_iff _ _ _).1 h with h | h
      · exact absurd h (hn _ _)
      · exact absurd h.1 (hl _)
  simp [checkAddress, this]

theorem uniDigit_ascii (d : Nat) (h : d < 10) : uniDigit (Nat.digitChar d) = some d := by
  have : ∀ d < 10, uniDigit (Nat.digitChar d) = some d := by decide +kernel
  exact this d h

theorem foldl_toDigits : ∀ n : Nat, (Nat.toDigits 10 n).foldl (fun n c => 10 * n + (uniDigit c).getD 0) 0 = n := by
  intro n
  induction n using Nat.strongRecOn with
  | ind n ih =>
    rw [Nat.toDigits_eq_if (by decide)]
    split
    · rename_i h; simp [uniDigit_ascii _ h]
    · rw [List.foldl_append, ih _ (by omega)]
      simp [uniDigit_ascii _ (Nat.mod_lt n (by decide : 0 < 10))]
      omega

/-- C42 for addresses as servers publish them: the port is written in decimal. The network is asked for exactly this host and port, and
the result is `open`, `closed` or `timeout` according to what it does. -/
theorem C42_port (net : List Char → Nat → Connect) (h : List Char) (n : Nat) (hn : n ≤ 65535) (h1 : h ≠ []) (h2 : '\n' ∉ h) :
    checkAddress net ("tcp://".toList ++ h ++ ':' :: Nat.toDigits 10 n) =
      match net h n with
      | .accepted => .ok (some "open")
      | .timeout => .ok (some "timeout")
      | .osError => .ok (some "closed")
      | .raised e => .error e := by
  have hs : TcpAddress ("tcp://".toList ++ h ++ ':' :: Nat.toDigits 10 n) h (Nat.toDigits 10 n) [] := by
    refine ⟨by simp, h1, h2, Nat.toDigits_ne_nil, fun c hc => ?_⟩
    obtain ⟨d, hd, rfl⟩ := mem_toDigits (by decide) (by decide) _ _ hc
    simp [isUniDigit, uniDigit_ascii _ hd]
  have hlen : (Nat.toDigits 10 n).length ≤ 5 := (Nat.length_toDigits_le_iff (by decide) (by decide)).2 (by omega)
  rw [C42_checked_partial net _ _ _ _ hs (.inl rfl) (by omega), foldl_toDigits, checkTcpPort]
  cases net h n <;> rfl

/-- C42, the constructor: connecting is refused at once exactly if the check says `closed`; addresses that cannot be checked are not
refused. -/
theorem C42_refused (net : List Char → Nat → Connect) (s : List Char) :
    connectCheck net s = .error .connectionRefused ↔
      checkAddress net s = .ok (some "closed") ∨ checkAddress net s = .error .connectionRefused := by
  unfold connectCheck
  split <;> simp_all

/-- **C41** The default name of a process tells its id: it is `process-` and the digits that `int` reads as the id. -/
theorem C41_default_name (pid : Nat) : ∃ d, defaultProcessName pid = "process-".toList ++ d ∧ (∀ c ∈ d, c.isDigit = true) ∧
    d.foldl (fun n c => 10 * n + (uniDigit c).getD 0) 0 = pid :=
  ⟨_, rfl, fun _ hc => Nat.isDigit_of_mem_toDigits (by omega) (by omega) hc, foldl_toDigits pid⟩

/-! ## Concrete cases -/
namespace Ex

/-- C41 fails: a dot in a host or process name makes two different clients of the same server indistinguishable. -/
theorem C41_fails : ∃ h p t h' p' t' a, (h, p, t) ≠ (h', p', t') ∧ clientName h p t a = clientName h' p' t' a :=
  ⟨"lab".toList, "daq.cam".toList, "main".toList, "lab.daq".toList, "cam".toList, "main".toList, "tcp://10.0.0.1:5000".toList, by decide +kernel⟩

example : clientName "a.b".toList (defaultProcessName 12) (defaultThreadName 255) "x".toList = "a.b.process-12.thread-ff:x".toList := by
  decide +kernel

/-- C42 fails: an address with a newline at the end is taken for the address without it. -/
theorem C42_fails : ∃ net s, (∀ h d, ¬ TcpAddress s h d []) ∧ checkAddress net s = .ok (some "open") := by
  refine ⟨fun _ _ => .accepted, "tcp://h:1\n".toList, fun h d hs => ?_, by decide +kernel⟩
  obtain ⟨h1, _, _, h3, h4⟩ := hs
  have hl : d.getLast h3 = '\n' := by
    have h1' := congrArg List.getLast? h1
    rw [List.append_nil, List.getLast?_append] at h1'
    simp [List.getLast?_cons, List.getLast?_eq_some_getLast h3] at h1'
    exact h1'.symm
  have := h4 _ (List.getLast_mem h3)
  rw [hl] at this
  revert this; decide +kernel

example : checkAddress (fun h p => if h = "127.0.0.1".toList ∧ p = 5000 then .accepted else .osError) "tcp://127.0.0.1:5000".toList =
    .ok (some "open") := by decide +kernel

/-- The last colon counts. -/
example : matchTcp "tcp://[::1]:80".toList = some ("[::1]".toList, "80".toList) := by decide +kernel
example : matchTcp "tcp://:80".toList = none := by decide +kernel
example : matchTcp "tcp://*:8x".toList = none := by decide +kernel
example : matchTcp "ipc:///tmp/x".toList = none := by decide +kernel
/-- Digits of other scripts are taken as well. -/
example : checkAddress (fun _ p => if p = 25 then .timeout else .osError) "tcp://h:٢٥".toList = .ok (some "timeout") := by decide +kernel

end Ex

/-! ## Cases that meet the hypotheses -/

example := C41_unique_partial "lab".toList "camera".toList "Thread-1.2".toList "tcp://lab.example:5000".toList "lab".toList "camera".toList
  "Thread-1.2".toList "tcp://lab.example:5000".toList (by decide) (by decide) (by decide) (by decide) (by decide) (by decide) rfl
/-- Dots in the name of the host, a colon in that of the process. -/
example := C41_same_server_partial "lab.example".toList "a:b".toList "main".toList "lab.example".toList "a:b".toList "main".toList "tcp://x:1".toList
  (by decide) (by decide) (by decide) (by decide) rfl
example := C41_default_partial "a.b".toList "a.b".toList "x".toList 12 12 255 255 rfl
/-- The last colon of several, and a newline. -/
example (net : List Char → Nat → Connect) := C42_checked_partial net "tcp://[::1]:80\n".toList "[::1]".toList "80".toList ['\n']
  ⟨by decide +kernel, by decide, by decide, by decide, by decide +kernel⟩ (.inr rfl) (by decide)
example (net : List Char → Nat → Connect) := C42_port net "127.0.0.1".toList 5000 (by decide) (by decide) (by decide)
example (net : List Char → Nat → Connect) := C42_unchecked_partial net "ipc:///tmp/x:1".toList
  (by rintro h d ⟨h1, -⟩; exact absurd (congrArg List.head? h1) (by simp)) (by intro p h; exact absurd (congrArg List.getLast? h) (by simp))

end Verif
