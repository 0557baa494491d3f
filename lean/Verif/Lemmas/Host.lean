import Verif.Model.Host
/-!
# Invariants of establishing connections
-/
namespace KM

/-- What holds for each connection; `H` is the hash of the server -/
structure Attempt.Inv (H : Bytes) (a : Attempt) : Prop where
  len : a.hash.length = 8
  stream : ∃ sent rest, a.hash = sent ++ rest ∧ (∀ r, a.client = .sending r → r = rest ∧ r ≠ []) ∧ (a.client = .waiting ∨ a.client = .connected → rest = []) ∧
    (a.clientSent ≠ [] → rest = []) ∧ (a.server = .pending → a.toServer = sent ++ a.clientSent) ∧
    (∀ got, a.server = .reading got → got ++ a.toServer = sent ++ a.clientSent ∧ got.length < 8) ∧
    (a.server = .answering → H ++ a.toServer = sent ++ a.clientSent) ∧
    (a.server = .connected → H ++ (a.serverReceived ++ a.toServer) = sent ++ a.clientSent)
  recv : a.serverReceived <+: a.clientSent
  early : (a.server = .pending ∨ a.server = .answering ∨ ∃ got, a.server = .reading got) → a.accepted = false ∧ a.serverReceived = []
  acc : a.accepted = true ∨ a.server = .answering → a.hash = H
  conn : a.server = .connected ∨ a.client = .connected → a.accepted = true
  out1 : (a.client = .waiting ∨ ∃ r, a.client = .sending r) → a.toClient = (if a.accepted then 1 :: a.serverSent else []) ∧ a.clientReceived = []
  out2 : a.client = .connected → a.clientReceived ++ a.toClient = a.serverSent
  out3 : a.clientReceived <+: a.serverSent
  noSent : a.accepted = false → a.serverSent = []
  mism : a.server = .mismatch → a.hash ≠ H

variable {H : Bytes} {a : Attempt}

theorem Attempt.Inv.clientSend (h : a.Inv H) (n : Nat) : (a.clientSend n).Inv H := by
  unfold Attempt.clientSend
  split
  · next rest hc =>
    split
    · obtain ⟨len, ⟨sent, r', hs⟩, h1, h2, h3, h4, h5, h6, h7, h8, h9⟩ := h
      refine ⟨len, ⟨sent, r', ?_⟩, h1, h2, h3, ?_, ?_, ?_, h7, h8, h9⟩ <;> grind
    · obtain ⟨len, ⟨sent, r', hs1, hs2, hs3, hs4, hs5, hs6, hs7, hs8⟩, h1, h2, h3, h4, h5, h6, h7, h8, h9⟩ := h
      obtain ⟨rfl, hne⟩ := hs2 rest hc
      have hcs : a.clientSent = [] := by
        cases hx : a.clientSent with
        | nil => rfl
        | cons x xs => exact absurd (hs4 (by rw [hx]; simp)) hne
      generalize hk : acceptedBytes n rest = k
      have htd : rest.take k ++ rest.drop k = rest := List.take_append_drop k rest
      have haf : ∀ l : Bytes, afterSend l = .waiting ∧ l = [] ∨ afterSend l = .sending l ∧ l ≠ [] := by
        intro l; cases l <;> simp [afterSend]
      have := haf (rest.drop k)
      refine ⟨len, ⟨sent ++ rest.take k, rest.drop k, ?_, ?_, ?_, ?_, ?_, ?_, ?_, ?_⟩, h1, h2, h3, ?_, ?_, ?_, h7, h8, h9⟩ <;> grind
  · exact h

theorem Attempt.Inv.clientRecv (h : a.Inv H) : (a.clientRecv).Inv H := by
  unfold Attempt.clientRecv
  split
  · next hc =>
    obtain ⟨len, ⟨sent, r', hs⟩, h1, h2, h3, h4, h5, h6, h7, h8, h9⟩ := h
    split
    · next b bs hb =>
      split
      · refine ⟨len, ⟨sent, r', ?_⟩, h1, h2, h3, ?_, ?_, ?_, h7, h8, h9⟩ <;> grind
      · refine ⟨len, ⟨sent, r', ?_⟩, h1, h2, h3, ?_, ?_, ?_, h7, h8, h9⟩ <;> grind
    · next hb =>
      split
      · refine ⟨len, ⟨sent, r', ?_⟩, h1, h2, h3, ?_, ?_, ?_, h7, h8, h9⟩ <;> grind
      · exact ⟨len, ⟨sent, r', hs⟩, h1, h2, h3, h4, h5, h6, h7, h8, h9⟩
  · exact h

theorem Attempt.Inv.clientMessage (h : a.Inv H) (b : Bytes) : (a.clientMessage b).Inv H := by
  unfold Attempt.clientMessage
  split
  · next hc =>
    obtain ⟨len, ⟨sent, r', hs⟩, h1, h2, h3, h4, h5, h6, h7, h8, h9⟩ := h
    refine ⟨len, ⟨sent, r', ?_⟩, h1.trans (List.prefix_append _ _), h2, h3, h4, h5, h6, h7, h8, h9⟩
    grind
  · exact h

theorem Attempt.Inv.clientTake (h : a.Inv H) (n : Nat) : (a.clientTake n).Inv H := by
  unfold Attempt.clientTake
  split
  · next hc =>
    obtain ⟨len, hs, h1, h2, h3, h4, h5, h6, h7, h8, h9⟩ := h
    have hx := h6 hc.1
    have h10 : a.clientReceived ++ a.toClient.take n ++ a.toClient.drop n = a.serverSent := by rw [List.append_assoc, List.take_append_drop]; exact hx
    exact ⟨len, hs, h1, h2, h3, h4, by grind, fun _ => h10, ⟨_, h10⟩, h8, h9⟩
  · exact h

theorem Attempt.Inv.clientClose (h : a.Inv H) : (a.clientClose).Inv H := by
  obtain ⟨len, hs, h1, h2, h3, h4, h5, h6, h7, h8, h9⟩ := h
  exact ⟨len, hs, h1, h2, h3, h4, h5, h6, h7, h8, h9⟩

theorem Attempt.Inv.accept (h : a.Inv H) (hp : a.server = .pending) : (a.accept).Inv H := by
  obtain ⟨len, ⟨sent, r', hs⟩, h1, h2, h3, h4, h5, h6, h7, h8, h9⟩ := h
  unfold Attempt.accept
  refine ⟨len, ⟨sent, r', ?_⟩, h1, ?_, ?_, ?_, h5, h6, h7, h8, ?_⟩ <;> grind

theorem Attempt.Inv.serverClose (h : a.Inv H) : (a.serverClose).Inv H := by
  unfold Attempt.serverClose
  split
  · exact h
  · obtain ⟨len, ⟨sent, r', hs⟩, h1, h2, h3, h4, h5, h6, h7, h8, h9⟩ := h
    refine ⟨len, ⟨sent, r', ?_⟩, h1, ?_, ?_, ?_, h5, h6, h7, h8, ?_⟩ <;> grind

theorem Attempt.Inv.serverMessage (h : a.Inv H) (b : Bytes) : (a.serverMessage b).Inv H := by
  unfold Attempt.serverMessage
  split
  · next hc =>
    obtain ⟨len, hs, h1, h2, h3, h4, h5, h6, h7, h8, h9⟩ := h
    have hacc := h4 (.inl hc)
    refine ⟨len, hs, h1, h2, h3, h4, ?_, ?_, h7.trans (List.prefix_append _ _), ?_, h9⟩ <;> grind
  · exact h

theorem Attempt.Inv.serverTake (h : a.Inv H) (hH : H.length = 8) (n : Nat) : (a.serverTake n).Inv H := by
  unfold Attempt.serverTake
  split
  · next hc =>
    obtain ⟨len, ⟨sent, r', hs⟩, h1, h2, h3, h4, h5, h6, h7, h8, h9⟩ := h
    have htd : a.toServer.take n ++ a.toServer.drop n = a.toServer := List.take_append_drop _ _
    have hacc := h3 (.inl (h4 (.inl hc)))
    have hst := hs.2.2.2.2.2.2.2 hc
    have hlen := congrArg List.length hst
    have h10 : a.serverReceived ++ a.toServer = a.clientSent := by
      have hl : H.length = (sent ++ r').length := by rw [← hs.1, len, hH]
      have : r' = [] := by
        cases hx : a.clientSent with
        | nil =>
          rw [hx] at hlen
          simp only [List.length_append, List.length_nil] at hlen hl
          exact List.length_eq_zero_iff.1 (by omega)
        | cons x xs => exact hs.2.2.2.1 (by rw [hx]; simp)
      subst this
      rw [List.append_nil] at hl
      exact (List.append_inj hst (by simpa using hl)).2
    refine ⟨len, ⟨sent, r', ?_⟩, ⟨a.toServer.drop n, ?_⟩, ?_, h3, h4, h5, h6, h7, h8, h9⟩ <;> grind
  · exact h

theorem Attempt.Inv.serverAnswer (h : a.Inv H) : (a.serverAnswer).Inv H := by
  unfold Attempt.serverAnswer
  split
  · next hc =>
    obtain ⟨len, ⟨sent, r', hs⟩, h1, h2, h3, h4, h5, h6, h7, h8, h9⟩ := h
    have he := h2 (.inr (.inl hc))
    have hns := h8 he.1
    split
    · refine ⟨len, ⟨sent, r', ?_⟩, h1, ?_, ?_, ?_, h5, h6, h7, h8, ?_⟩ <;> grind
    · refine ⟨len, ⟨sent, r', ?_⟩, h1, ?_, ?_, ?_, ?_, ?_, h7, ?_, ?_⟩ <;> grind
  · exact h

theorem Attempt.Inv.serverRead (h : a.Inv H) (hH : H.length = 8) (n : Nat) : (a.serverRead H n).Inv H := by
  unfold Attempt.serverRead
  split
  · next got hc =>
    obtain ⟨len, ⟨sent, r', hs⟩, h1, h2, h3, h4, h5, h6, h7, h8, h9⟩ := h
    have he := h2 (.inr (.inr ⟨_, hc⟩))
    split
    · split
      · refine ⟨len, ⟨sent, r', ?_⟩, h1, ?_, ?_, ?_, h5, h6, h7, h8, ?_⟩ <;> grind
      · exact ⟨len, ⟨sent, r', hs⟩, h1, h2, h3, h4, h5, h6, h7, h8, h9⟩
    · next hne =>
      have hg := hs.2.2.2.2.2.1 got hc
      simp only []
      generalize hk : receivedBytes n (hashSize - got.length) a.toServer.length = k
      have hkl : k ≤ hashSize - got.length := by
        rw [← hk]; unfold receivedBytes; omega
      have htd : a.toServer.take k ++ a.toServer.drop k = a.toServer := List.take_append_drop _ _
      have hgl : (got ++ a.toServer.take k).length ≤ 8 := by
        simp only [List.length_append, List.length_take, hashSize] at *; omega
      have hcat : (got ++ a.toServer.take k) ++ a.toServer.drop k = sent ++ a.clientSent := by rw [List.append_assoc, htd]; exact hg.1
      generalize hg' : got ++ a.toServer.take k = got' at hgl hcat
      have heq : got'.length = 8 → got' = a.hash := by
        intro h8'
        have hl := congrArg List.length hcat
        have hlh : a.hash.length = sent.length + r'.length := by rw [hs.1, List.length_append]
        have : r' = [] := by
          cases hx : a.clientSent with
          | nil =>
            rw [hx] at hl
            simp only [List.length_append, List.length_nil] at hl
            exact List.length_eq_zero_iff.1 (by omega)
          | cons x xs => exact hs.2.2.2.1 (by rw [hx]; simp)
        subst this
        rw [hs.1, List.append_nil]
        exact (List.append_inj hcat (by simp only [List.length_nil] at hlh; omega)).1
      have hcmp : (got'.length < 8 ∧ compareHash H got' = .reading got') ∨ (got' = H ∧ a.hash = H ∧ compareHash H got' = .answering) ∨
          (a.hash ≠ H ∧ compareHash H got' = .mismatch) := by
        unfold compareHash
        split
        · next h8' =>
          split
          · next e => exact .inr (.inl ⟨e, by rw [← heq h8', e], rfl⟩)
          · next e => exact .inr (.inr ⟨by rw [← heq h8']; exact e, rfl⟩)
        · next h8' => exact .inl ⟨by have : hashSize = 8 := rfl; omega, rfl⟩
      rcases hcmp with ⟨hl, hcmp⟩ | ⟨he1, he2, hcmp⟩ | ⟨hm, hcmp⟩ <;> rw [hcmp]
      · refine ⟨len, ⟨sent, r', ?_⟩, h1, ?_, ?_, ?_, h5, h6, h7, h8, ?_⟩ <;> grind
      · refine ⟨len, ⟨sent, r', ?_⟩, h1, ?_, ?_, ?_, h5, h6, h7, h8, ?_⟩ <;> grind
      · refine ⟨len, ⟨sent, r', ?_⟩, h1, ?_, ?_, ?_, h5, h6, h7, h8, ?_⟩ <;> grind
  · exact h

theorem Attempt.Inv.new (hash : Bytes) (hl : hash.length = 8) : ({ hash := hash, client := .sending hash } : Attempt).Inv H := by
  refine ⟨hl, ⟨[], hash, ?_⟩, ?_, ?_, ?_, ?_, ?_, ?_, ?_, ?_, ?_⟩ <;> grind

/-! ### the server and all connections -/

/-- the server handles the connection -/
def ServerPhase.Active (p : ServerPhase) : Prop := p = .answering ∨ p = .connected ∨ ∃ got, p = .reading got

structure HostSys.Inv (s : HostSys) : Prop where
  len : s.hash.length = 8
  att : ∀ a ∈ s.attempts, a.Inv s.hash
  cur : ∀ i a, s.attempts[i]? = some a → (a.server.Active ↔ s.current = some i)
  curLt : ∀ i, s.current = some i → i < s.attempts.length
  bl : ∀ i a, s.attempts[i]? = some a → (a.server = .pending ↔ i ∈ s.backlog)
  blLt : ∀ i ∈ s.backlog, i < s.attempts.length
  nodup : s.backlog.Nodup
  exit : s.exited = true ↔ ∃ a ∈ s.attempts, a.server = .mismatch
  exitIdle : s.exited = true → s.current = none ∧ s.backlog = []

theorem HostSys.getElem?_update (s : HostSys) (i j : Nat) (f : Attempt → Attempt) :
    (s.update i f).attempts[j]? = if i = j then (s.attempts[j]?).map f else s.attempts[j]? := by
  unfold HostSys.update
  simp only [List.getElem?_modify]
  split <;> simp_all

theorem HostSys.mem_update {s : HostSys} {i : Nat} {f : Attempt → Attempt} {b : Attempt} (h : b ∈ (s.update i f).attempts) :
    (∃ a, s.attempts[i]? = some a ∧ b = f a) ∨ b ∈ s.attempts := by
  obtain ⟨j, hj⟩ := List.mem_iff_getElem?.1 h
  rw [HostSys.getElem?_update] at hj
  split at hj
  · next e =>
    subst e
    obtain ⟨a, ha, rfl⟩ := Option.map_eq_some_iff.1 hj
    exact .inl ⟨a, ha, rfl⟩
  · exact .inr (List.mem_of_getElem? hj)

/-- a change which does not change where the server is -/
theorem HostSys.Inv.update {s : HostSys} (h : s.Inv) (i : Nat) (f : Attempt → Attempt) (hf : ∀ a ∈ s.attempts, (f a).Inv s.hash)
    (hs : ∀ a, (f a).server = a.server) : (s.update i f).Inv := by
  have hget : ∀ (j : Nat) (b : Attempt), (s.update i f).attempts[j]? = some b → ∃ a : Attempt, s.attempts[j]? = some a ∧ b.server = a.server := by
    intro j b hb
    rw [HostSys.getElem?_update] at hb
    split at hb
    · obtain ⟨a, ha, rfl⟩ := Option.map_eq_some_iff.1 hb
      exact ⟨a, ha, hs a⟩
    · exact ⟨b, hb, rfl⟩
  have hlen : (s.update i f).attempts.length = s.attempts.length := by simp [HostSys.update]
  have hmm : (∃ a ∈ (s.update i f).attempts, a.server = .mismatch) ↔ ∃ a ∈ s.attempts, a.server = .mismatch := by
    constructor
    · rintro ⟨b, hb, hm⟩
      obtain ⟨j, hj⟩ := List.mem_iff_getElem?.1 hb
      obtain ⟨a, ha, e⟩ := hget j b hj
      exact ⟨a, List.mem_of_getElem? ha, by rw [← e]; exact hm⟩
    · rintro ⟨a, ha, hm⟩
      obtain ⟨j, hj⟩ := List.mem_iff_getElem?.1 ha
      have := HostSys.getElem?_update s i j f
      rw [hj] at this
      split at this
      · exact ⟨_, List.mem_of_getElem? this, by rw [hs]; exact hm⟩
      · exact ⟨_, List.mem_of_getElem? this, hm⟩
  refine ⟨h.len, ?_, ?_, ?_, ?_, ?_, h.nodup, ?_, h.exitIdle⟩
  · intro b hb
    rcases HostSys.mem_update hb with ⟨a, ha, rfl⟩ | hb
    · exact hf a (List.mem_of_getElem? ha)
    · exact h.att b hb
  · intro j b hb
    obtain ⟨a, ha, e⟩ := hget j b hb
    rw [e]; exact h.cur j a ha
  · intro j hj; rw [hlen]; exact h.curLt j hj
  · intro j b hb
    obtain ⟨a, ha, e⟩ := hget j b hb
    rw [e]; exact h.bl j a ha
  · intro j hj; rw [hlen]; exact h.blLt j hj
  · exact Iff.trans h.exit hmm.symm

theorem Attempt.server_clientSend (a : Attempt) (n : Nat) : (a.clientSend n).server = a.server := by
  unfold Attempt.clientSend; split <;> (try split) <;> rfl

theorem Attempt.server_clientRecv (a : Attempt) : (a.clientRecv).server = a.server := by
  unfold Attempt.clientRecv
  split
  · split
    · split <;> rfl
    · split <;> rfl
  · rfl

theorem Attempt.server_clientMessage (a : Attempt) (b : Bytes) : (a.clientMessage b).server = a.server := by
  unfold Attempt.clientMessage; split <;> rfl

theorem Attempt.server_clientTake (a : Attempt) (n : Nat) : (a.clientTake n).server = a.server := by
  unfold Attempt.clientTake; split <;> rfl

theorem Attempt.server_serverMessage (a : Attempt) (b : Bytes) : (a.serverMessage b).server = a.server := by
  unfold Attempt.serverMessage; split <;> rfl

theorem Attempt.server_serverTake (a : Attempt) (n : Nat) : (a.serverTake n).server = a.server := by
  unfold Attempt.serverTake; split <;> rfl

theorem HostSys.Inv.connect {s : HostSys} (h : s.Inv) (hash : Bytes) (hl : hash.length = 8) (he : s.exited = false) :
    HostSys.Inv { s with attempts := s.attempts ++ [{ hash := hash, client := .sending hash }], backlog := s.backlog ++ [s.attempts.length] } := by
  have hget : ∀ j b, (s.attempts ++ [({ hash := hash, client := .sending hash } : Attempt)])[j]? = some b →
      (j < s.attempts.length ∧ s.attempts[j]? = some b) ∨ (j = s.attempts.length ∧ b = { hash := hash, client := .sending hash }) := by
    intro j b hb
    rcases Nat.lt_or_ge j s.attempts.length with hj | hj
    · rw [List.getElem?_append_left hj] at hb; exact .inl ⟨hj, hb⟩
    · rw [List.getElem?_append_right hj] at hb
      have h0 : j - s.attempts.length = 0 := by
        rcases Nat.eq_zero_or_pos (j - s.attempts.length) with h | h
        · exact h
        · rw [List.getElem?_eq_none (by simp only [List.length_singleton]; omega)] at hb; simp at hb
      rw [h0] at hb
      exact .inr ⟨by omega, by simpa using hb.symm⟩
  refine ⟨h.len, ?_, ?_, ?_, ?_, ?_, ?_, ?_, ?_⟩
  · intro b hb
    simp only [List.mem_append, List.mem_singleton] at hb
    rcases hb with hb | rfl
    · exact h.att b hb
    · exact Attempt.Inv.new hash hl
  · intro j b hb
    rcases hget j b hb with ⟨hj, hb⟩ | ⟨rfl, rfl⟩
    · exact h.cur j b hb
    · constructor
      · intro ha; simp [ServerPhase.Active] at ha
      · intro hc; exact absurd (h.curLt _ hc) (Nat.lt_irrefl _)
  · intro j hj; simp only [List.length_append, List.length_singleton]; have := h.curLt j hj; omega
  · intro j b hb
    simp only [List.mem_append, List.mem_singleton]
    rcases hget j b hb with ⟨hj, hb⟩ | ⟨rfl, rfl⟩
    · rw [h.bl j b hb]
      constructor
      · exact .inl
      · rintro (h | h)
        · exact h
        · omega
    · simp
  · intro j hj
    simp only [List.mem_append, List.mem_singleton, List.length_append, List.length_singleton] at hj ⊢
    rcases hj with hj | hj
    · have := h.blLt j hj; omega
    · omega
  · rw [List.nodup_append]
    refine ⟨h.nodup, by simp, ?_⟩
    intro x hx y hy e
    simp only [List.mem_singleton] at hy
    have := h.blLt x hx
    omega
  · rw [show (s.exited = true ↔ _) from h.exit]
    constructor
    · rintro ⟨a, ha, hm⟩; exact ⟨a, List.mem_append_left _ ha, hm⟩
    · rintro ⟨a, ha, hm⟩
      simp only [List.mem_append, List.mem_singleton] at ha
      rcases ha with ha | rfl
      · exact ⟨a, ha, hm⟩
      · simp at hm
  · intro hx; rw [he] at hx; simp at hx

/-- where the server is with the connection after its next call -/
theorem Attempt.next_phase (H : Bytes) (a : Attempt) (n : Nat) (ha : a.server.Active) :
    let b := if a.server = .answering then a.serverAnswer else a.serverRead H n
    b.server.Active ∨ b.server = .closed ∨ b.server = .mismatch := by
  rcases ha with ha | ha | ⟨got, ha⟩
  · rw [if_pos ha]
    unfold Attempt.serverAnswer
    rw [ha]
    simp only []
    split
    · exact .inr (.inl rfl)
    · exact .inl (.inr (.inl rfl))
  · rw [if_neg (by rw [ha]; simp)]
    unfold Attempt.serverRead
    rw [ha]
    exact .inl (.inr (.inl ha))
  · rw [if_neg (by rw [ha]; simp)]
    unfold Attempt.serverRead
    rw [ha]
    simp only []
    split
    · split
      · exact .inr (.inl rfl)
      · exact .inl (.inr (.inr ⟨_, ha⟩))
    · simp only [compareHash]
      split
      · split
        · exact .inl (.inl rfl)
        · exact .inr (.inr rfl)
      · exact .inl (.inr (.inr ⟨_, rfl⟩))

theorem Attempt.serverClose_server (a : Attempt) : a.serverClose.server = if a.server = .mismatch then .mismatch else .closed := by
  unfold Attempt.serverClose Attempt.serverClosed
  cases h : a.server <;> simp [h]

theorem HostSys.Inv.server {s : HostSys} (h : s.Inv) (he : s.exited = false) (n : Nat) : (s.server n).Inv := by
  have hnm : ∀ a ∈ s.attempts, a.server ≠ .mismatch := by
    intro a ha hm
    have := h.exit.2 ⟨a, ha, hm⟩
    rw [he] at this; simp at this
  unfold HostSys.server
  split
  · next hc =>
    split
    · exact h
    · next i rest hb =>
      have hil := h.blLt i (by rw [hb]; exact List.mem_cons_self)
      obtain ⟨a, ha⟩ : ∃ a, s.attempts[i]? = some a := ⟨_, List.getElem?_eq_getElem hil⟩
      have hp : a.server = .pending := (h.bl i a ha).2 (by rw [hb]; exact List.mem_cons_self)
      have hnd := h.nodup
      rw [hb, List.nodup_cons] at hnd
      have hlen : (s.update i Attempt.accept).attempts.length = s.attempts.length := by simp [HostSys.update]
      have hget : ∀ j b, (s.update i Attempt.accept).attempts[j]? = some b →
          (j = i ∧ b = a.accept) ∨ (j ≠ i ∧ s.attempts[j]? = some b) := by
        intro j b hb
        rw [HostSys.getElem?_update] at hb
        split at hb
        · next e => subst e; rw [ha] at hb; exact .inl ⟨rfl, by simpa using hb.symm⟩
        · next e => exact .inr ⟨fun e' => e e'.symm, hb⟩
      refine ⟨h.len, ?_, ?_, ?_, ?_, ?_, hnd.2, ?_, ?_⟩
      · intro b hb
        obtain ⟨j, hj⟩ := List.mem_iff_getElem?.1 hb
        rcases hget j b hj with ⟨rfl, rfl⟩ | ⟨_, hj⟩
        · exact (h.att a (List.mem_of_getElem? ha)).accept hp
        · exact h.att b (List.mem_of_getElem? hj)
      · intro j b hbj
        show _ ↔ some i = some j
        rcases hget j b hbj with ⟨rfl, rfl⟩ | ⟨hne, hj⟩
        · simp [ServerPhase.Active, Attempt.accept]
        · rw [h.cur j b hj, hc]
          simp only [Option.some.injEq, reduceCtorEq, false_iff]
          exact fun e => hne e.symm
      · intro j hj
        have : i = j := by simpa using hj
        subst this; exact Nat.lt_of_lt_of_eq hil hlen.symm
      · intro j b hbj
        show _ ↔ j ∈ rest
        rcases hget j b hbj with ⟨rfl, rfl⟩ | ⟨hne, hj⟩
        · simp [Attempt.accept, hnd.1]
        · rw [h.bl j b hj, hb, List.mem_cons]
          simp [hne]
      · intro j hj
        exact Nat.lt_of_lt_of_eq (h.blLt j (by rw [hb]; exact List.mem_cons_of_mem _ hj)) hlen.symm
      · show s.exited = true ↔ _
        rw [he]
        simp only [Bool.false_eq_true, false_iff]
        rintro ⟨b, hb, hm⟩
        obtain ⟨j, hj⟩ := List.mem_iff_getElem?.1 hb
        rcases hget j b hj with ⟨rfl, rfl⟩ | ⟨_, hj⟩
        · simp [Attempt.accept] at hm
        · exact hnm b (List.mem_of_getElem? hj) hm
      · intro hx; rw [show ({ (s.update i Attempt.accept) with current := some i, backlog := rest } : HostSys).exited = s.exited from rfl, he] at hx; simp at hx
  · next i hc =>
    have hil := h.curLt i hc
    obtain ⟨a, ha⟩ : ∃ a, s.attempts[i]? = some a := ⟨_, List.getElem?_eq_getElem hil⟩
    have hact : a.server.Active := (h.cur i a ha).2 hc
    obtain ⟨f, hf⟩ : ∃ f : Attempt → Attempt, f = (fun a => if a.server = .answering then a.serverAnswer else a.serverRead s.hash n) := ⟨_, rfl⟩
    rw [← hf]
    obtain ⟨b, hb⟩ : ∃ b, b = f a := ⟨_, rfl⟩
    have hbinv : b.Inv s.hash := by
      have hai := h.att a (List.mem_of_getElem? ha)
      rw [hb, hf]
      show (if a.server = .answering then a.serverAnswer else a.serverRead s.hash n).Inv s.hash
      split
      · exact hai.serverAnswer
      · exact hai.serverRead h.len n
    have hph : b.server.Active ∨ b.server = .closed ∨ b.server = .mismatch := by
      rw [hb, hf]; exact Attempt.next_phase s.hash a n hact
    have hlen : (s.update i f).attempts.length = s.attempts.length := by simp [HostSys.update]
    have hgi : (s.update i f).attempts[i]? = some b := by rw [HostSys.getElem?_update, if_pos rfl, ha, hb]; rfl
    have hget : ∀ j c, (s.update i f).attempts[j]? = some c → (j = i ∧ c = b) ∨ (j ≠ i ∧ s.attempts[j]? = some c) := by
      intro j c hj
      rw [HostSys.getElem?_update] at hj
      split at hj
      · next e => subst e; rw [ha] at hj; exact .inl ⟨rfl, by rw [hb]; simpa using hj.symm⟩
      · next e => exact .inr ⟨fun e' => e e'.symm, hj⟩
    have hnb : i ∉ s.backlog := by
      intro hx
      have := (h.bl i a ha).2 hx
      rw [this] at hact
      simp [ServerPhase.Active] at hact
    have hatt : ∀ c ∈ (s.update i f).attempts, c.Inv s.hash := by
      intro c hcm
      obtain ⟨j, hj⟩ := List.mem_iff_getElem?.1 hcm
      rcases hget j c hj with ⟨rfl, rfl⟩ | ⟨_, hj⟩
      · exact hbinv
      · exact h.att c (List.mem_of_getElem? hj)
    unfold HostSys.settle
    rw [hgi]
    simp only [Option.map_some]
    split
    · next hcl =>
      have hcl : b.server = .closed := by simpa using hcl
      refine ⟨h.len, hatt, ?_, ?_, ?_, ?_, h.nodup, ?_, ?_⟩
      · intro j c hj
        show _ ↔ none = some j
        rcases hget j c hj with ⟨rfl, rfl⟩ | ⟨hne, hj⟩
        · rw [hcl]; simp [ServerPhase.Active]
        · rw [h.cur j c hj, hc]
          simp only [Option.some.injEq, reduceCtorEq, iff_false]
          exact fun e => hne e.symm
      · intro j hj; simp at hj
      · intro j c hj
        show _ ↔ j ∈ s.backlog
        rcases hget j c hj with ⟨rfl, rfl⟩ | ⟨hne, hj⟩
        · rw [hcl]; simp [hnb]
        · exact h.bl j c hj
      · intro j hj; exact Nat.lt_of_lt_of_eq (h.blLt j hj) hlen.symm
      · show s.exited = true ↔ _
        rw [he]
        simp only [Bool.false_eq_true, false_iff]
        rintro ⟨c, hcm, hm⟩
        obtain ⟨j, hj⟩ := List.mem_iff_getElem?.1 hcm
        rcases hget j c hj with ⟨rfl, rfl⟩ | ⟨_, hj⟩
        · rw [hcl] at hm; simp at hm
        · exact hnm c (List.mem_of_getElem? hj) hm
      · intro hx; have hx : s.exited = true := hx; rw [he] at hx; simp at hx
    · next hmm =>
      have hmm : b.server = .mismatch := by simpa using hmm
      have hgetm : ∀ (j : Nat) (c : Attempt), ((s.update i f).attempts.map Attempt.serverClose)[j]? = some c → ∃ d : Attempt, (s.update i f).attempts[j]? = some d ∧ c = d.serverClose := by
        intro j c hj
        rw [List.getElem?_map] at hj
        obtain ⟨d, hd, rfl⟩ := Option.map_eq_some_iff.1 hj
        exact ⟨d, hd, rfl⟩
      refine ⟨h.len, ?_, ?_, ?_, ?_, ?_, List.nodup_nil, ?_, fun _ => ⟨rfl, rfl⟩⟩
      · intro c hcm
        obtain ⟨d, hd, rfl⟩ := List.mem_map.1 hcm
        exact (hatt d hd).serverClose
      · intro j c hj
        show _ ↔ none = some j
        obtain ⟨d, hd, rfl⟩ := hgetm j c hj
        rw [Attempt.serverClose_server]
        split <;> simp [ServerPhase.Active]
      · intro j hj; simp at hj
      · intro j c hj
        show _ ↔ j ∈ []
        obtain ⟨d, hd, rfl⟩ := hgetm j c hj
        rw [Attempt.serverClose_server]
        split <;> simp
      · intro j hj; simp at hj
      · show true = true ↔ _
        simp only [true_iff]
        exact ⟨b.serverClose, List.mem_map.2 ⟨b, List.mem_of_getElem? hgi, rfl⟩, by rw [Attempt.serverClose_server, if_pos hmm]⟩
    · next hn1 hn2 =>
      have hba : b.server.Active := by
        rcases hph with h' | h' | h'
        · exact h'
        · rw [h'] at hn1; exact absurd rfl hn1
        · rw [h'] at hn2; exact absurd rfl hn2
      refine ⟨h.len, hatt, ?_, ?_, ?_, ?_, h.nodup, ?_, h.exitIdle⟩
      · intro j c hj
        show _ ↔ s.current = some j
        rcases hget j c hj with ⟨rfl, rfl⟩ | ⟨hne, hj⟩
        · simp [hba, hc]
        · exact h.cur j c hj
      · intro j hj; exact Nat.lt_of_lt_of_eq (h.curLt j hj) hlen.symm
      · intro j c hj
        show _ ↔ j ∈ s.backlog
        rcases hget j c hj with ⟨rfl, rfl⟩ | ⟨hne, hj⟩
        · constructor
          · intro e; rw [e] at hba; simp [ServerPhase.Active] at hba
          · intro e; exact absurd e hnb
        · exact h.bl j c hj
      · intro j hj; exact Nat.lt_of_lt_of_eq (h.blLt j hj) hlen.symm
      · show s.exited = true ↔ _
        rw [he]
        simp only [Bool.false_eq_true, false_iff]
        rintro ⟨c, hcm, hm⟩
        obtain ⟨j, hj⟩ := List.mem_iff_getElem?.1 hcm
        rcases hget j c hj with ⟨rfl, rfl⟩ | ⟨_, hj⟩
        · rw [hm] at hba; simp [ServerPhase.Active] at hba
        · exact hnm c (List.mem_of_getElem? hj) hm

theorem HostSys.Inv.close {s : HostSys} (h : s.Inv) : (s.close).Inv := by
  unfold HostSys.close
  split
  · next i hc =>
    split
    · next hcon =>
      have hil := h.curLt i hc
      obtain ⟨a, ha⟩ : ∃ a, s.attempts[i]? = some a := ⟨_, List.getElem?_eq_getElem hil⟩
      have hac : a.server = .connected := by rw [ha] at hcon; simpa using hcon
      have hcl : a.serverClose.server = .closed := by rw [Attempt.serverClose_server, hac]; rfl
      have hlen : (s.update i Attempt.serverClose).attempts.length = s.attempts.length := by simp [HostSys.update]
      have hget : ∀ j c, (s.update i Attempt.serverClose).attempts[j]? = some c → (j = i ∧ c = a.serverClose) ∨ (j ≠ i ∧ s.attempts[j]? = some c) := by
        intro j c hj
        rw [HostSys.getElem?_update] at hj
        split at hj
        · next e => subst e; rw [ha] at hj; exact .inl ⟨rfl, by simpa using hj.symm⟩
        · next e => exact .inr ⟨fun e' => e e'.symm, hj⟩
      refine ⟨h.len, ?_, ?_, ?_, ?_, ?_, h.nodup, ?_, ?_⟩
      · intro c hcm
        obtain ⟨j, hj⟩ := List.mem_iff_getElem?.1 hcm
        rcases hget j c hj with ⟨rfl, rfl⟩ | ⟨_, hj⟩
        · exact (h.att a (List.mem_of_getElem? ha)).serverClose
        · exact h.att c (List.mem_of_getElem? hj)
      · intro j c hj
        show _ ↔ none = some j
        rcases hget j c hj with ⟨rfl, rfl⟩ | ⟨hne, hj⟩
        · rw [hcl]; simp [ServerPhase.Active]
        · rw [h.cur j c hj, hc]
          simp only [Option.some.injEq, reduceCtorEq, iff_false]
          exact fun e => hne e.symm
      · intro j hj; simp at hj
      · intro j c hj
        show _ ↔ j ∈ s.backlog
        rcases hget j c hj with ⟨rfl, rfl⟩ | ⟨hne, hj⟩
        · rw [hcl]
          simp only [reduceCtorEq, false_iff]
          intro hx
          have := (h.bl j a ha).2 hx
          rw [hac] at this; simp at this
        · exact h.bl j c hj
      · intro j hj; exact Nat.lt_of_lt_of_eq (h.blLt j hj) hlen.symm
      · show s.exited = true ↔ _
        rw [h.exit]
        constructor
        · rintro ⟨c, hcm, hm⟩
          obtain ⟨j, hj⟩ := List.mem_iff_getElem?.1 hcm
          have hne : i ≠ j := by
            rintro rfl
            rw [ha] at hj
            have : a = c := by simpa using hj
            rw [← this, hac] at hm; simp at hm
          have := HostSys.getElem?_update s i j Attempt.serverClose
          rw [if_neg hne, hj] at this
          exact ⟨c, List.mem_of_getElem? this, hm⟩
        · rintro ⟨c, hcm, hm⟩
          obtain ⟨j, hj⟩ := List.mem_iff_getElem?.1 hcm
          rcases hget j c hj with ⟨rfl, rfl⟩ | ⟨_, hj⟩
          · rw [hcl] at hm; simp at hm
          · exact ⟨c, List.mem_of_getElem? hj, hm⟩
      · intro hx
        exact ⟨rfl, (h.exitIdle hx).2⟩
    · exact h
  · exact h

/-- the hash of each program has the size of a `size_t` -/
def HostStep.Proper : HostStep → Prop
  | .connect hash => hash.length = 8
  | _ => True

instance (x : HostStep) : Decidable x.Proper := by cases x <;> unfold HostStep.Proper <;> infer_instance

theorem HostSys.Inv.step {s : HostSys} (h : s.Inv) (x : HostStep) (hx : x.Proper) : (s.step x).Inv := by
  cases x with
  | connect hash =>
    simp only [HostSys.step]
    split
    · exact h
    · next he => exact h.connect hash hx (by simpa using he)
  | clientSend i n =>
    refine h.update i _ (fun a ha => ?_) (fun a => ?_)
    · split
      · exact h.att a ha
      · exact (h.att a ha).clientSend n
    · split
      · rfl
      · exact a.server_clientSend n
  | clientRecv i =>
    refine h.update i _ (fun a ha => ?_) (fun a => ?_)
    · split
      · exact h.att a ha
      · exact (h.att a ha).clientRecv
    · split
      · rfl
      · exact a.server_clientRecv
  | clientMessage i b => exact h.update i _ (fun a ha => (h.att a ha).clientMessage b) (fun a => a.server_clientMessage b)
  | clientTake i n => exact h.update i _ (fun a ha => (h.att a ha).clientTake n) (fun a => a.server_clientTake n)
  | clientClose i => exact h.update i _ (fun a ha => (h.att a ha).clientClose) (fun a => rfl)
  | server n =>
    simp only [HostSys.step]
    split
    · exact h
    · next he => exact h.server (by simpa using he) n
  | serverMessage b =>
    simp only [HostSys.step, HostSys.withCurrent]
    split
    · exact h.update _ _ (fun a ha => (h.att a ha).serverMessage b) (fun a => a.server_serverMessage b)
    · exact h
  | serverTake n =>
    simp only [HostSys.step, HostSys.withCurrent]
    split
    · exact h.update _ _ (fun a ha => (h.att a ha).serverTake h.len n) (fun a => a.server_serverTake n)
    · exact h
  | serverClose => exact h.close

theorem HostSys.Inv.init (hash : Bytes) (hl : hash.length = 8) : HostSys.Inv { hash := hash } := by
  refine ⟨hl, ?_, ?_, ?_, ?_, ?_, List.nodup_nil, ?_, ?_⟩ <;> simp

theorem HostSys.step_hash (s : HostSys) (x : HostStep) : (s.step x).hash = s.hash := by
  cases x <;> simp only [HostSys.step, HostSys.withCurrent, HostSys.close, HostSys.server, HostSys.settle, HostSys.update] <;> (repeat' split) <;> rfl

theorem HostSys.run_inv (hash : Bytes) (hl : hash.length = 8) (steps : List HostStep) (hp : ∀ x ∈ steps, x.Proper) :
    (HostSys.run hash steps).Inv ∧ (HostSys.run hash steps).hash = hash := by
  unfold HostSys.run
  have : ∀ (steps : List HostStep) (s : HostSys), s.Inv → (∀ x ∈ steps, x.Proper) → (steps.foldl HostSys.step s).Inv ∧ (steps.foldl HostSys.step s).hash = s.hash := by
    intro steps
    induction steps with
    | nil => intro s hs _; exact ⟨hs, rfl⟩
    | cons x l ih =>
      intro s hs hp
      have := ih (s.step x) (hs.step x (hp x List.mem_cons_self)) (fun y hy => hp y (List.mem_cons_of_mem _ hy))
      exact ⟨this.1, this.2.trans (s.step_hash x)⟩
  exact this steps _ (HostSys.Inv.init hash hl) hp

end KM
