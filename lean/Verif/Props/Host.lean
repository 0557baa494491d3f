import Verif.Lemmas.Host
/-!
# C90: connections are established between programs of the same version
-/
namespace KM

/-- **C90** Whoever has a connection, the server or the program which connected, has it with a program of the same version. -/
theorem C90_same_version (hash : Bytes) (hl : hash.length = 8) (steps : List HostStep) (hp : ∀ x ∈ steps, x.Proper) (a : Attempt)
    (ha : a ∈ (HostSys.run hash steps).attempts) (hc : a.server = .connected ∨ a.client = .connected) : a.hash = hash := by
  obtain ⟨h, hh⟩ := HostSys.run_inv hash hl steps hp
  have := h.att a ha
  rw [hh] at this
  exact this.acc (.inl (this.conn hc))

/-- **C90** A program which connected only has a connection once the server accepted it (that its call of `::connect` succeeded, or that the server accepted another one, is not enough). -/
theorem C90_accepted (hash : Bytes) (hl : hash.length = 8) (steps : List HostStep) (hp : ∀ x ∈ steps, x.Proper) (a : Attempt)
    (ha : a ∈ (HostSys.run hash steps).attempts) (hc : a.client = .connected) : a.accepted = true ∧ (a.server = .connected ∨ a.server = .closed) := by
  obtain ⟨h, hh⟩ := HostSys.run_inv hash hl steps hp
  have hi := h.att a ha
  rw [hh] at hi
  have hacc := hi.conn (.inr hc)
  refine ⟨hacc, ?_⟩
  have h1 : ¬ (a.server = .pending ∨ a.server = .answering ∨ ∃ got, a.server = .reading got) := by
    intro hx; have := (hi.early hx).1; rw [hacc] at this; simp at this
  cases hs : a.server with
  | pending => exact absurd (.inl hs) h1
  | reading got => exact absurd (.inr (.inr ⟨got, hs⟩)) h1
  | answering => exact absurd (.inr (.inl hs)) h1
  | connected => exact .inl rfl
  | closed => exact .inr rfl
  | mismatch => exact absurd (hi.acc (.inl hacc)) (hi.mism hs)

/-- **C90** The server has one connection at a time: two programs whose connections were not closed by it are the same. -/
theorem C90_one (hash : Bytes) (hl : hash.length = 8) (steps : List HostStep) (hp : ∀ x ∈ steps, x.Proper) (i j : Nat) (a b : Attempt)
    (ha : (HostSys.run hash steps).attempts[i]? = some a) (hb : (HostSys.run hash steps).attempts[j]? = some b)
    (hca : a.client = .connected) (hcb : b.client = .connected) (hsa : a.server ≠ .closed) (hsb : b.server ≠ .closed) : i = j := by
  obtain ⟨h, hh⟩ := HostSys.run_inv hash hl steps hp
  have h1 := (C90_accepted hash hl steps hp a (List.mem_of_getElem? ha) hca).2.resolve_right hsa
  have h2 := (C90_accepted hash hl steps hp b (List.mem_of_getElem? hb) hcb).2.resolve_right hsb
  have e1 := (h.cur i a ha).1 (.inr (.inl h1))
  have e2 := (h.cur j b hb).1 (.inr (.inl h2))
  rw [e1] at e2
  simpa using e2

/-- **C90** The messages begin right after the handshake: what the server reads as messages is what the program sent as messages, from the first byte, and the other way round. When nothing is
underway, then nothing is missing. -/
theorem C90_messages (hash : Bytes) (hl : hash.length = 8) (steps : List HostStep) (hp : ∀ x ∈ steps, x.Proper) (a : Attempt)
    (ha : a ∈ (HostSys.run hash steps).attempts) :
    a.serverReceived <+: a.clientSent ∧ a.clientReceived <+: a.serverSent ∧
    (a.server = .connected → a.serverReceived ++ a.toServer = a.clientSent) ∧ (a.client = .connected → a.clientReceived ++ a.toClient = a.serverSent) := by
  obtain ⟨h, hh⟩ := HostSys.run_inv hash hl steps hp
  have hi := h.att a ha
  rw [hh] at hi
  refine ⟨hi.recv, hi.out3, ?_, hi.out2⟩
  intro hc
  obtain ⟨sent, r', hs⟩ := hi.stream
  have hst := hs.2.2.2.2.2.2.2 hc
  have hlen := congrArg List.length hst
  have hl' : hash.length = (sent ++ r').length := by rw [← hs.1, hi.len, hl]
  have : r' = [] := by
    cases hx : a.clientSent with
    | nil =>
      rw [hx] at hlen
      simp only [List.length_append, List.length_nil] at hlen hl'
      exact List.length_eq_zero_iff.1 (by omega)
    | cons x xs => exact hs.2.2.2.1 (by rw [hx]; simp)
  subst this
  rw [List.append_nil] at hl'
  exact (List.append_inj hst (by simpa using hl')).2

/-- **C90** The server only ends because a program with another version connected (which then has no connection). -/
theorem C90_mismatch (hash : Bytes) (hl : hash.length = 8) (steps : List HostStep) (hp : ∀ x ∈ steps, x.Proper) (he : (HostSys.run hash steps).exited = true) :
    ∃ a ∈ (HostSys.run hash steps).attempts, a.hash ≠ hash ∧ a.accepted = false ∧ a.client ≠ .connected := by
  obtain ⟨h, hh⟩ := HostSys.run_inv hash hl steps hp
  obtain ⟨a, ha, hm⟩ := h.exit.1 he
  have hi := h.att a ha
  rw [hh] at hi
  have hne := hi.mism hm
  refine ⟨a, ha, hne, ?_, fun hc => hne (hi.acc (.inl (hi.conn (.inr hc))))⟩
  cases hacc : a.accepted with
  | false => rfl
  | true => exact absurd (hi.acc (.inl hacc)) hne

/-- **C90** When the server read the hash of a program with another version, then it ends. -/
theorem C90_mismatch_ends (hash : Bytes) (hl : hash.length = 8) (steps : List HostStep) (hp : ∀ x ∈ steps, x.Proper) (i : Nat) (a : Attempt)
    (hcur : (HostSys.run hash steps).current = some i) (ha : (HostSys.run hash steps).attempts[i]? = some a) (hne : a.hash ≠ hash)
    (hsent : a.client = .waiting) : ((HostSys.run hash steps).step (.server 8)).exited = true := by
  obtain ⟨h, hh⟩ := HostSys.run_inv hash hl steps hp
  generalize HostSys.run hash steps = s at *
  have hi := h.att a (List.mem_of_getElem? ha)
  rw [hh] at hi
  have hex : s.exited = false := by
    cases hx : s.exited with
    | false => rfl
    | true => have := (h.exitIdle hx).1; rw [hcur] at this; simp at this
  obtain ⟨sent, r', hs⟩ := hi.stream
  have hr : r' = [] := hs.2.2.1 (.inl hsent)
  subst hr
  rw [List.append_nil] at hs
  have hact := (h.cur i a ha).2 hcur
  have hrd : ∃ got, a.server = .reading got := by
    rcases hact with h1 | h1 | h1
    · exact absurd (hi.acc (.inr h1)) hne
    · exact absurd (hi.acc (.inl (hi.conn (.inl h1)))) hne
    · exact h1
  obtain ⟨got, hg⟩ := hrd
  obtain ⟨hcat, hgl⟩ := hs.2.2.2.2.2.1 got hg
  rw [← hs.1] at hcat
  have hlen := congrArg List.length hcat
  simp only [List.length_append, hi.len] at hlen
  have hk : receivedBytes 8 (hashSize - got.length) a.toServer.length = hashSize - got.length := by
    unfold receivedBytes; have : hashSize = 8 := rfl; omega
  have htake : got ++ a.toServer.take (hashSize - got.length) = a.hash := by
    have h1 : (got ++ a.toServer).take 8 = (a.hash ++ a.clientSent).take 8 := by rw [hcat]
    rw [List.take_append, List.take_append, hi.len, Nat.sub_self, List.take_zero, List.append_nil] at h1
    have h2 : got.take 8 = got := List.take_of_length_le (by omega)
    have h3 : a.hash.take 8 = a.hash := List.take_of_length_le (by rw [hi.len]; exact Nat.le_refl _)
    rw [h2, h3] at h1
    exact h1
  have hb : (a.serverRead s.hash 8).server = .mismatch := by
    unfold Attempt.serverRead
    rw [hg]
    simp only []
    rw [if_neg (by intro e; rw [e] at hlen; simp at hlen; omega), hk, htake]
    simp only [compareHash, hi.len, if_true, hh]
    rw [if_neg hne]
  simp only [HostSys.step, hex, Bool.false_eq_true, if_false, HostSys.server, hcur, HostSys.settle, HostSys.getElem?_update, if_true, ha, Option.map_some, hg, reduceCtorEq]
  rw [hb]

/-! ### getting a connection -/

/-- what remains to be done until both have the connection -/
def Attempt.todo (a : Attempt) : Nat :=
  (match a.client with
    | .sending rest => rest.length + 1
    | .waiting => 1
    | _ => 0) +
  (match a.server with
    | .pending => 10
    | .reading got => 9 - got.length
    | .answering => 1
    | _ => 0)

/-- The connection `i`: of a program with the same version which did not give up, and it is its turn: the server handles it, or it is the next -/
structure HostSys.Turn (s : HostSys) (i : Nat) (a : Attempt) : Prop where
  inv : s.Inv
  exited : s.exited = false
  get : s.attempts[i]? = some a
  hash : a.hash = s.hash
  opened : a.clientClosed = false
  trying : a.client ≠ .failed
  turn : s.current = some i ∨ (s.current = none ∧ s.backlog.head? = some i)

/-- the step closes the connection `i`, or lets the server close the connection it has -/
def HostStep.closes (i : Nat) : HostStep → Bool
  | .clientClose j => i == j
  | .serverClose => true
  | _ => false

/-- nothing happened, or progress was made -/
def Attempt.Progress (a b : Attempt) : Prop := b.todo < a.todo ∨ (b.client = a.client ∧ b.server = a.server)

theorem Attempt.Progress.refl (a : Attempt) : a.Progress a := .inr ⟨rfl, rfl⟩

theorem HostSys.Turn.phase {s : HostSys} {i : Nat} {a : Attempt} (h : s.Turn i a) :
    (a.server.Active ∧ s.current = some i) ∨ (a.server = .pending ∧ s.current = none ∧ s.backlog.head? = some i) := by
  rcases h.turn with ht | ⟨h1, h2⟩
  · exact .inl ⟨(h.inv.cur i a h.get).2 ht, ht⟩
  · exact .inr ⟨(h.inv.bl i a h.get).2 (List.mem_of_head? h2), h1, h2⟩

theorem HostSys.Turn.notClosed {s : HostSys} {i : Nat} {a : Attempt} (h : s.Turn i a) : a.serverClosed = false := by
  unfold Attempt.serverClosed
  rcases h.phase with ⟨h1 | h1 | ⟨_, h1⟩, _⟩ | ⟨h1, _⟩ <;> rw [h1] <;> rfl

theorem todo_clientSend (a : Attempt) (n : Nat) (hs : a.serverClosed = false) (hne : ∀ r, a.client = .sending r → r ≠ []) :
    a.Progress (a.clientSend n) ∧ (a.clientSend n).hash = a.hash ∧ (a.clientSend n).clientClosed = a.clientClosed ∧ ((a.clientSend n).client = .failed → a.client = .failed) ∧
    ((∃ r, a.client = .sending r) → (a.clientSend n).todo < a.todo) := by
  unfold Attempt.clientSend
  split
  · next rest hc =>
    rw [hs]
    simp only [Bool.false_eq_true, if_false]
    have hr := hne rest hc
    have hk : 1 ≤ acceptedBytes n rest := by
      unfold acceptedBytes
      have := List.length_pos_iff.2 hr
      omega
    generalize acceptedBytes n rest = k at hk
    have haf : (afterSend (rest.drop k) = .waiting) ∨ (afterSend (rest.drop k) = .sending (rest.drop k)) := by
      cases rest.drop k <;> simp [afterSend]
    have hlen : (rest.drop k).length < rest.length := by
      rw [List.length_drop]; have := List.length_pos_iff.2 hr; omega
    have hpos := List.length_pos_iff.2 hr
    have hlt : ∀ x : Attempt, x.client = afterSend (rest.drop k) → x.server = a.server → x.todo < a.todo := by
      intro x h1 h2
      unfold Attempt.todo
      rw [h1, h2, hc]
      rcases haf with e | e <;> rw [e] <;> simp only [] <;> omega
    refine ⟨.inl (hlt _ rfl rfl), trivial, trivial, ?_, fun _ => hlt _ rfl rfl⟩
    intro h
    rcases haf with e | e <;> rw [e] at h <;> simp at h
  · next hc => exact ⟨.refl a, rfl, rfl, id, fun ⟨r, hr⟩ => absurd hr (hc r)⟩

theorem todo_clientRecv (H : Bytes) (a : Attempt) (hi : a.Inv H) (hs : a.serverClosed = false) :
    a.Progress a.clientRecv ∧ (a.clientRecv).hash = a.hash ∧ (a.clientRecv).clientClosed = a.clientClosed ∧ ((a.clientRecv).client = .failed → a.client = .failed) ∧
    (a.client = .waiting → a.accepted = true → (a.clientRecv).todo < a.todo) := by
  unfold Attempt.clientRecv
  split
  · next hc =>
    have ho := (hi.out1 (.inl hc)).1
    split
    · next b bs hb =>
      have hb1 : b ≠ 0 := by
        rw [hb] at ho
        split at ho
        · simp only [List.cons.injEq] at ho; rw [ho.1]; decide
        · simp at ho
      rw [if_pos hb1]
      have hlt : ∀ x : Attempt, x.client = .connected → x.server = a.server → x.todo < a.todo := by
        intro x h1 h2
        unfold Attempt.todo
        rw [h1, h2, hc]
        simp only []; omega
      exact ⟨.inl (hlt _ rfl rfl), rfl, rfl, (fun h => by simp at h), fun _ _ => hlt _ rfl rfl⟩
    · next hb =>
      rw [hs]
      refine ⟨.refl a, rfl, rfl, id, ?_⟩
      intro _ hacc
      rw [hb, hacc] at ho
      simp at ho
  · next hc => exact ⟨.refl a, rfl, rfl, id, fun h _ => absurd h hc⟩

theorem todo_server (H : Bytes) (a : Attempt) (n : Nat) (hi : a.Inv H) (hH : a.hash = H) (ho : a.clientClosed = false) (ha : a.server.Active) :
    let b := if a.server = .answering then a.serverAnswer else a.serverRead H n
    a.Progress b ∧ b.hash = a.hash ∧ b.clientClosed = a.clientClosed ∧ b.client = a.client ∧ b.server.Active ∧
    (a.client = .waiting → a.server ≠ .connected → b.todo < a.todo) := by
  have hmm : (if a.server = .answering then a.serverAnswer else a.serverRead H n).server ≠ .mismatch := by
    intro hm
    have hi2 : (if a.server = .answering then a.serverAnswer else a.serverRead H n).Inv H := by
      split
      · exact hi.serverAnswer
      · exact hi.serverRead (by rw [← hH]; exact hi.len) n
    refine hi2.mism hm ?_
    rw [← hH]
    split
    · unfold Attempt.serverAnswer; split <;> (try split) <;> rfl
    · unfold Attempt.serverRead; split <;> (try split) <;> (try split) <;> rfl
  simp only []
  rcases ha with h | h | ⟨got, h⟩
  · rw [if_pos h]
    unfold Attempt.serverAnswer
    rw [h, ho]
    simp only [Bool.false_eq_true, if_false]
    have hlt : ∀ x : Attempt, x.client = a.client → x.server = .connected → x.todo < a.todo := by
      intro x h1 h2
      unfold Attempt.todo
      rw [h1, h2, h]
      simp only []; omega
    exact ⟨.inl (hlt _ rfl rfl), trivial, trivial, trivial, .inr (.inl rfl), fun _ _ => hlt _ rfl rfl⟩
  · rw [if_neg (by rw [h]; simp)]
    unfold Attempt.serverRead
    rw [h]
    exact ⟨.refl a, rfl, rfl, rfl, .inr (.inl h), fun _ hx => absurd rfl hx⟩
  · rw [if_neg (by rw [h]; simp)] at hmm ⊢
    unfold Attempt.serverRead at hmm ⊢
    rw [h] at hmm ⊢
    simp only [] at hmm ⊢
    obtain ⟨sent, r', hs⟩ := hi.stream
    obtain ⟨hcat, hgl⟩ := hs.2.2.2.2.2.1 got h
    split
    · next he =>
      rw [ho]
      refine ⟨.refl a, rfl, ho, rfl, .inr (.inr ⟨_, h⟩), ?_⟩
      intro hw _
      have hr := hs.2.2.1 (.inl hw)
      subst hr
      rw [he, List.append_nil] at hcat
      have h1 := congrArg List.length hcat
      have h2 := hi.len
      rw [hs.1] at h2
      simp only [List.append_nil, List.length_append] at h1 h2
      omega
    · next hne =>
      rw [if_neg hne] at hmm
      have hk : 1 ≤ receivedBytes n (hashSize - got.length) a.toServer.length ∧ receivedBytes n (hashSize - got.length) a.toServer.length ≤ a.toServer.length := by
        unfold receivedBytes
        have := List.length_pos_iff.2 hne
        have : hashSize = 8 := rfl
        omega
      generalize receivedBytes n (hashSize - got.length) a.toServer.length = k at hmm hk
      have hgl2 : (got ++ a.toServer.take k).length = got.length + k := by
        rw [List.length_append, List.length_take]; omega
      have hph : (compareHash H (got ++ a.toServer.take k) = .reading (got ++ a.toServer.take k)) ∨ (compareHash H (got ++ a.toServer.take k) = .answering) := by
        unfold compareHash at hmm ⊢
        split
        · next h8 =>
          split
          · exact .inr rfl
          · next hx => rw [if_pos h8, if_neg hx] at hmm; exact absurd rfl hmm
        · exact .inl rfl
      have hlt : ∀ x : Attempt, x.client = a.client → x.server = compareHash H (got ++ a.toServer.take k) → x.todo < a.todo := by
        intro x h1 h2
        unfold Attempt.todo
        rw [h1, h2, h]
        rcases hph with e | e <;> rw [e] <;> simp only [hgl2] <;> omega
      refine ⟨.inl (hlt _ rfl rfl), rfl, rfl, rfl, ?_, fun _ _ => hlt _ rfl rfl⟩
      show (compareHash H (got ++ a.toServer.take k)).Active
      rcases hph with e | e <;> rw [e]
      · exact .inr (.inr ⟨_, rfl⟩)
      · exact .inl rfl

/-- a change of one connection by the program which connected -/
theorem HostSys.Turn.client {s : HostSys} {i : Nat} {a : Attempt} (h : s.Turn i a) (j : Nat) (f : Attempt → Attempt) (hinv : (s.update j f).Inv)
    (hf : a.Progress (f a) ∧ (f a).hash = a.hash ∧ (f a).clientClosed = a.clientClosed ∧ ((f a).client = .failed → a.client = .failed)) :
    ∃ b, (s.update j f).Turn i b ∧ a.Progress b := by
  by_cases hj : j = i
  · subst hj
    refine ⟨f a, ⟨hinv, h.exited, ?_, ?_, ?_, ?_, h.turn⟩, hf.1⟩
    · rw [HostSys.getElem?_update, if_pos rfl, h.get]; rfl
    · rw [hf.2.1]; exact h.hash
    · rw [hf.2.2.1]; exact h.opened
    · exact fun hx => h.trying (hf.2.2.2 hx)
  · refine ⟨a, ⟨hinv, h.exited, ?_, h.hash, h.opened, h.trying, h.turn⟩, .refl a⟩
    rw [HostSys.getElem?_update, if_neg hj]; exact h.get

theorem HostSys.Turn.nonempty {s : HostSys} {i : Nat} {a : Attempt} (h : s.Turn i a) : ∀ r, a.client = .sending r → r ≠ [] := by
  intro r hr
  obtain ⟨sent, r', hs⟩ := (h.inv.att a (List.mem_of_getElem? h.get)).stream
  exact (hs.2.1 r hr).2

/-- where the connection and the server are after the next call of the server -/
theorem HostSys.Turn.server {s : HostSys} {i : Nat} {a : Attempt} (h : s.Turn i a) (n : Nat) :
    ∃ b, (s.step (.server n)).Turn i b ∧ a.Progress b ∧ (a.client = .waiting → a.server ≠ .connected → b.todo < a.todo) := by
  have hinv := h.inv.step (.server n) trivial
  simp only [HostSys.step, h.exited, Bool.false_eq_true, if_false] at hinv ⊢
  have hai := h.inv.att a (List.mem_of_getElem? h.get)
  rcases h.phase with ⟨hact, hcur⟩ | ⟨hp, hcur, hhd⟩
  · have ht := todo_server s.hash a n hai h.hash h.opened hact
    simp only [] at ht
    obtain ⟨b, hb⟩ : ∃ b, b = (if a.server = .answering then a.serverAnswer else a.serverRead s.hash n) := ⟨_, rfl⟩
    rw [← hb] at ht
    have hs : s.server n = s.update i (fun a => if a.server = .answering then a.serverAnswer else a.serverRead s.hash n) := by
      simp only [HostSys.server, hcur, HostSys.settle, HostSys.getElem?_update, if_true, h.get, Option.map_some]
      rw [← hb]
      rcases ht.2.2.2.2.1 with e | e | ⟨_, e⟩ <;> rw [e]
    rw [hs] at hinv ⊢
    refine ⟨b, ⟨hinv, h.exited, ?_, ?_, ?_, ?_, .inl hcur⟩, ht.1, ht.2.2.2.2.2⟩
    · rw [HostSys.getElem?_update, if_pos rfl, h.get, hb]; rfl
    · rw [ht.2.1]; exact h.hash
    · rw [ht.2.2.1]; exact h.opened
    · rw [ht.2.2.2.1]; exact h.trying
  · obtain ⟨rest, hrest⟩ : ∃ rest, s.backlog = i :: rest := by
      cases hb : s.backlog with
      | nil => rw [hb] at hhd; simp at hhd
      | cons x xs => rw [hb] at hhd; simp only [List.head?_cons, Option.some.injEq] at hhd; rw [hhd]; exact ⟨xs, rfl⟩
    have hs : s.server n = { (s.update i Attempt.accept) with current := some i, backlog := rest } := by
      simp only [HostSys.server, hcur, hrest]
    rw [hs] at hinv ⊢
    have hlt : a.accept.todo < a.todo := by
      unfold Attempt.todo Attempt.accept
      rw [hp]
      simp
    refine ⟨a.accept, ⟨hinv, h.exited, ?_, h.hash, h.opened, h.trying, .inl rfl⟩, .inl hlt, fun _ _ => hlt⟩
    show (s.update i Attempt.accept).attempts[i]? = _
    rw [HostSys.getElem?_update, if_pos rfl, h.get]; rfl

theorem HostSys.Turn.step {s : HostSys} {i : Nat} {a : Attempt} (h : s.Turn i a) (x : HostStep) (hp : x.Proper) (hx : x.closes i = false) :
    ∃ b, (s.step x).Turn i b ∧ a.Progress b := by
  have hinv := h.inv.step x hp
  have hai := h.inv.att a (List.mem_of_getElem? h.get)
  have hil : i < s.attempts.length := by
    rcases Nat.lt_or_ge i s.attempts.length with hx | hx
    · exact hx
    · have := h.get; rw [List.getElem?_eq_none hx] at this; simp at this
  cases x with
  | connect hash =>
    simp only [HostSys.step, h.exited, Bool.false_eq_true, if_false] at hinv ⊢
    refine ⟨a, ⟨hinv, rfl, ?_, h.hash, h.opened, h.trying, ?_⟩, .refl a⟩
    · show (s.attempts ++ _)[i]? = some a
      rw [List.getElem?_append_left hil]; exact h.get
    · rcases h.turn with ht | ⟨h1, h2⟩
      · exact .inl ht
      · refine .inr ⟨h1, ?_⟩
        show (s.backlog ++ _).head? = some i
        cases hb : s.backlog with
        | nil => rw [hb] at h2; simp at h2
        | cons y ys => rw [hb] at h2; simpa using h2
  | clientSend j n =>
    refine h.client j _ hinv ?_
    rw [h.opened]
    have := todo_clientSend a n h.notClosed h.nonempty
    exact ⟨this.1, this.2.1, this.2.2.1.trans h.opened, this.2.2.2.1⟩
  | clientRecv j =>
    refine h.client j _ hinv ?_
    rw [h.opened]
    have := todo_clientRecv s.hash a hai h.notClosed
    exact ⟨this.1, this.2.1, this.2.2.1.trans h.opened, this.2.2.2.1⟩
  | clientMessage j b =>
    refine h.client j _ hinv ?_
    simp only [Attempt.clientMessage]
    split
    · exact ⟨.inr ⟨rfl, rfl⟩, rfl, rfl, id⟩
    · exact ⟨.refl a, rfl, rfl, id⟩
  | clientTake j n =>
    refine h.client j _ hinv ?_
    simp only [Attempt.clientTake]
    split
    · exact ⟨.inr ⟨rfl, rfl⟩, rfl, rfl, id⟩
    · exact ⟨.refl a, rfl, rfl, id⟩
  | clientClose j =>
    have hji : j ≠ i := by
      rintro rfl
      simp [HostStep.closes] at hx
    refine ⟨a, ⟨hinv, h.exited, ?_, h.hash, h.opened, h.trying, h.turn⟩, .refl a⟩
    show (s.update j Attempt.clientClose).attempts[i]? = _
    rw [HostSys.getElem?_update, if_neg hji]; exact h.get
  | server n =>
    obtain ⟨b, hb, hpr, _⟩ := h.server n
    exact ⟨b, hb, hpr⟩
  | serverMessage b =>
    simp only [HostSys.step, HostSys.withCurrent] at hinv ⊢
    split at hinv
    · next j hj =>
      refine h.client j _ hinv ?_
      simp only [Attempt.serverMessage]
      split
      · exact ⟨.inr ⟨rfl, rfl⟩, rfl, rfl, id⟩
      · exact ⟨.refl a, rfl, rfl, id⟩
    · exact ⟨a, h, .refl a⟩
  | serverTake n =>
    simp only [HostSys.step, HostSys.withCurrent] at hinv ⊢
    split at hinv
    · next j hj =>
      refine h.client j _ hinv ?_
      simp only [Attempt.serverTake]
      split
      · exact ⟨.inr ⟨rfl, rfl⟩, rfl, rfl, id⟩
      · exact ⟨.refl a, rfl, rfl, id⟩
    · exact ⟨a, h, .refl a⟩
  | serverClose => simp [HostStep.closes] at hx

theorem Attempt.Progress.todo_le {a b : Attempt} (h : a.Progress b) : b.todo ≤ a.todo := by
  rcases h with h | ⟨h1, h2⟩
  · exact Nat.le_of_lt h
  · unfold Attempt.todo; rw [h1, h2]; exact Nat.le_refl _

theorem Attempt.Progress.trans {a b c : Attempt} (h : a.Progress b) (h' : b.Progress c) : a.Progress c := by
  rcases h' with h2 | ⟨h2, h3⟩
  · exact .inl (Nat.lt_of_lt_of_le h2 h.todo_le)
  · rcases h with h1 | ⟨h1, h4⟩
    · exact .inl (Nat.lt_of_le_of_lt (Attempt.Progress.todo_le (.inr ⟨h2, h3⟩)) h1)
    · exact .inr ⟨h2.trans h1, h3.trans h4⟩

theorem HostSys.Turn.run {i : Nat} (l : List HostStep) (hl : ∀ x ∈ l, x.Proper ∧ x.closes i = false) {s : HostSys} {a : Attempt} (h : s.Turn i a) :
    ∃ b, (l.foldl HostSys.step s).Turn i b ∧ a.Progress b := by
  induction l generalizing s a with
  | nil => exact ⟨a, h, .refl a⟩
  | cons x l ih =>
    obtain ⟨b, hb, hpb⟩ := h.step x (hl x List.mem_cons_self).1 (hl x List.mem_cons_self).2
    obtain ⟨c, hc, hpc⟩ := ih (fun y hy => hl y (List.mem_cons_of_mem _ hy)) hb
    exact ⟨c, hc, hpb.trans hpc⟩

/-- each of the two programs makes its next call at least once (when a call blocks it is made again), and none of them closes the connection; other programs do anything in between -/
structure Round (i : Nat) (l : List HostStep) : Prop where
  send : ∃ n, .clientSend i n ∈ l
  recv : .clientRecv i ∈ l
  server : ∃ n, .server n ∈ l
  steps : ∀ x ∈ l, x.Proper ∧ x.closes i = false

/-- a call which makes progress in all states in which both programs are where they are -/
theorem HostSys.Turn.by_call {i : Nat} {s : HostSys} {a : Attempt} (h : s.Turn i a) (l : List HostStep) (hl : ∀ x ∈ l, x.Proper ∧ x.closes i = false)
    (x : HostStep) (hx : x ∈ l)
    (heff : ∀ (t : HostSys) (b : Attempt), t.Turn i b → b.client = a.client → b.server = a.server → ∃ c, (t.step x).Turn i c ∧ c.todo < b.todo) :
    ∃ b, (l.foldl HostSys.step s).Turn i b ∧ b.todo < a.todo := by
  obtain ⟨l1, l2, rfl⟩ := List.append_of_mem hx
  rw [List.foldl_append, List.foldl_cons]
  obtain ⟨b, hb, hpb⟩ := h.run l1 (fun y hy => hl y (List.mem_append_left _ hy))
  have hl2 : ∀ y ∈ l2, y.Proper ∧ y.closes i = false := fun y hy => hl y (List.mem_append_right _ (List.mem_cons_of_mem _ hy))
  have hmid : ∃ c, ((l1.foldl HostSys.step s).step x).Turn i c ∧ c.todo < a.todo := by
    rcases hpb with hlt | ⟨h1, h2⟩
    · obtain ⟨c, hc, hpc⟩ := hb.step x (hl x hx).1 (hl x hx).2
      exact ⟨c, hc, Nat.lt_of_le_of_lt hpc.todo_le hlt⟩
    · obtain ⟨c, hc, hlt⟩ := heff _ b hb h1 h2
      exact ⟨c, hc, Nat.lt_of_lt_of_le hlt (Attempt.Progress.todo_le (.inr ⟨h1, h2⟩))⟩
  obtain ⟨c, hc, hlt⟩ := hmid
  obtain ⟨d, hd, hpd⟩ := hc.run l2 hl2
  exact ⟨d, hd, Nat.lt_of_le_of_lt hpd.todo_le hlt⟩

theorem HostSys.Turn.connected {i : Nat} {s : HostSys} {a : Attempt} (h : s.Turn i a) (hc : a.client = .connected) : a.server = .connected := by
  have hi := h.inv.att a (List.mem_of_getElem? h.get)
  have hacc := hi.conn (.inr hc)
  have he : ¬ (a.server = .pending ∨ a.server = .answering ∨ ∃ got, a.server = .reading got) := by
    intro hx; have := (hi.early hx).1; rw [hacc] at this; simp at this
  rcases h.phase with ⟨h1 | h1 | h1, _⟩ | ⟨h1, _⟩
  · exact absurd (.inr (.inl h1)) he
  · exact h1
  · exact absurd (.inr (.inr h1)) he
  · exact absurd (.inl h1) he

theorem HostSys.Turn.round {i : Nat} {s : HostSys} {a : Attempt} (h : s.Turn i a) (l : List HostStep) (hl : Round i l) (hc : a.client ≠ .connected) :
    ∃ b, (l.foldl HostSys.step s).Turn i b ∧ b.todo < a.todo := by
  cases hcl : a.client with
  | sending r =>
    obtain ⟨n, hn⟩ := hl.send
    refine h.by_call l hl.steps _ hn ?_
    intro t b hb h1 h2
    have ht := todo_clientSend b n hb.notClosed hb.nonempty
    have hinv := hb.inv.step (.clientSend i n) trivial
    refine ⟨b.clientSend n, ⟨hinv, hb.exited, ?_, ?_, ?_, ?_, hb.turn⟩, ht.2.2.2.2 ⟨r, h1.trans hcl⟩⟩
    · simp only [HostSys.step, HostSys.getElem?_update, if_true, hb.get, Option.map_some, hb.opened, Bool.false_eq_true, if_false]
    · rw [ht.2.1]; exact hb.hash
    · rw [ht.2.2.1]; exact hb.opened
    · exact fun hx => hb.trying (ht.2.2.2.1 hx)
  | waiting =>
    by_cases hs : a.server = .connected
    · refine h.by_call l hl.steps _ hl.recv ?_
      intro t b hb h1 h2
      have hbi := hb.inv.att b (List.mem_of_getElem? hb.get)
      have ht := todo_clientRecv t.hash b hbi hb.notClosed
      have hinv := hb.inv.step (.clientRecv i) trivial
      refine ⟨b.clientRecv, ⟨hinv, hb.exited, ?_, ?_, ?_, ?_, hb.turn⟩, ht.2.2.2.2 (h1.trans hcl) (hbi.conn (.inl (h2.trans hs)))⟩
      · simp only [HostSys.step, HostSys.getElem?_update, if_true, hb.get, Option.map_some, hb.opened, Bool.false_eq_true, if_false]
      · rw [ht.2.1]; exact hb.hash
      · rw [ht.2.2.1]; exact hb.opened
      · exact fun hx => hb.trying (ht.2.2.2.1 hx)
    · obtain ⟨n, hn⟩ := hl.server
      refine h.by_call l hl.steps _ hn ?_
      intro t b hb h1 h2
      obtain ⟨c, hc, _, hlt⟩ := hb.server n
      exact ⟨c, hc, hlt (h1.trans hcl) (by rw [h2]; exact hs)⟩
  | connected => exact absurd hcl hc
  | failed => exact absurd hcl h.trying

theorem HostSys.Turn.rounds {i : Nat} (rounds : List (List HostStep)) (hr : ∀ l ∈ rounds, Round i l) {s : HostSys} {a : Attempt} (h : s.Turn i a)
    (hlen : a.todo ≤ rounds.length) : ∃ b, (rounds.flatten.foldl HostSys.step s).Turn i b ∧ b.client = .connected := by
  induction rounds generalizing s a with
  | nil =>
    refine ⟨a, h, ?_⟩
    have h0 : a.todo = 0 := by simpa using hlen
    unfold Attempt.todo at h0
    cases hc : a.client with
    | sending r => rw [hc] at h0; simp at h0
    | waiting => rw [hc] at h0; simp at h0
    | connected => rfl
    | failed => exact absurd hc h.trying
  | cons l rounds ih =>
    rw [List.flatten_cons, List.foldl_append]
    have hrs := fun x hx => hr x (List.mem_cons_of_mem _ hx)
    by_cases hc : a.client = .connected
    · obtain ⟨b, hb, hpb⟩ := h.run l (hr l List.mem_cons_self).steps
      refine ih hrs hb ?_
      have hs := h.connected hc
      have h0 : a.todo = 0 := by unfold Attempt.todo; rw [hc, hs]; rfl
      have := hpb.todo_le
      omega
    · obtain ⟨b, hb, hlt⟩ := h.round l (hr l List.mem_cons_self) hc
      refine ih hrs hb ?_
      simp only [List.length_cons] at hlen
      omega

/-- **C90** A program of the same version gets its connection when it is its turn (the server handles its connection, or has no connection and it is the next): after the programs made their
calls at most 19 times both have the connection, whatever other programs do. -/
theorem C90_connects (hash : Bytes) (hl : hash.length = 8) (steps : List HostStep) (hp : ∀ x ∈ steps, x.Proper) (i : Nat) (a : Attempt)
    (ha : (HostSys.run hash steps).attempts[i]? = some a) (hh : a.hash = hash) (ho : a.clientClosed = false) (ht : a.client ≠ .failed)
    (hturn : (HostSys.run hash steps).current = some i ∨ ((HostSys.run hash steps).current = none ∧ (HostSys.run hash steps).backlog.head? = some i))
    (rounds : List (List HostStep)) (hn : 19 ≤ rounds.length) (hr : ∀ l ∈ rounds, Round i l) :
    ∃ b, (HostSys.run hash (steps ++ rounds.flatten)).attempts[i]? = some b ∧ b.client = .connected ∧ b.server = .connected := by
  obtain ⟨h, hhs⟩ := HostSys.run_inv hash hl steps hp
  have hex : (HostSys.run hash steps).exited = false := by
    cases hx : (HostSys.run hash steps).exited with
    | false => rfl
    | true =>
      have := h.exitIdle hx
      rcases hturn with h1 | ⟨_, h1⟩
      · rw [this.1] at h1; simp at h1
      · rw [this.2] at h1; simp at h1
  have hT : (HostSys.run hash steps).Turn i a := ⟨h, hex, ha, by rw [hhs]; exact hh, ho, ht, hturn⟩
  have hi := h.att a (List.mem_of_getElem? ha)
  have htodo : a.todo ≤ 19 := by
    unfold Attempt.todo
    have h1 : ∀ r, a.client = .sending r → r.length ≤ 8 := by
      intro r hr
      obtain ⟨sent, r', hs⟩ := hi.stream
      have := hi.len
      rw [hs.1, List.length_append] at this
      rw [(hs.2.1 r hr).1]; omega
    cases hc : a.client with
    | sending r => have := h1 r hc; cases a.server <;> simp only [] <;> omega
    | waiting => cases a.server <;> simp only [] <;> omega
    | connected => cases a.server <;> simp only [] <;> omega
    | failed => cases a.server <;> simp only [] <;> omega
  obtain ⟨b, hb, hc⟩ := hT.rounds rounds hr (Nat.le_trans htodo hn)
  have hrun : HostSys.run hash (steps ++ rounds.flatten) = rounds.flatten.foldl HostSys.step (HostSys.run hash steps) := by
    unfold HostSys.run; rw [List.foldl_append]
  rw [hrun]
  exact ⟨b, hb.get, hc, hb.connected hc⟩

/-- the step is one of the program with the connection `i` -/
def HostStep.isOf (i : Nat) : HostStep → Bool
  | .clientSend j _ | .clientRecv j | .clientMessage j _ | .clientTake j _ | .clientClose j => i == j
  | _ => false

/-- A program which connects and then sends nothing prevents all others from getting a connection: the server waits for its hash without a time limit. -/
theorem C90_silent_counterexample (hash other : Bytes) (n : Nat) (steps : List HostStep) (h : ∀ x ∈ steps, x.isOf 0 = false) :
    ∀ a ∈ (HostSys.run hash ([.connect other, .server n] ++ steps)).attempts, a.accepted = false ∧ a.server ≠ .connected := by
  suffices ∀ s : HostSys, (s.current = some 0 ∧ s.exited = false ∧ s.attempts[0]? = some { hash := other, client := .sending other, server := .reading [] } ∧
      ∀ a ∈ s.attempts, a.accepted = false ∧ a.server ≠ .connected) →
      ∀ a ∈ (steps.foldl HostSys.step s).attempts, a.accepted = false ∧ a.server ≠ .connected by
    unfold HostSys.run
    rw [List.foldl_append]
    exact this _ (by simp [HostSys.step, HostSys.server, HostSys.update, Attempt.accept])
  induction steps with
  | nil => intro s hs; exact hs.2.2.2
  | cons x l ih =>
    intro s ⟨hc, he, hg, hall⟩
    refine ih (fun y hy => h y (List.mem_cons_of_mem _ hy)) (s.step x) ?_
    have hx := h x List.mem_cons_self
    have hupd : ∀ (j : Nat) (f : Attempt → Attempt), j ≠ 0 → (∀ a, (f a).accepted = a.accepted ∧ (f a).server = a.server) →
        ((s.update j f).current = some 0 ∧ (s.update j f).exited = false ∧
          (s.update j f).attempts[0]? = some { hash := other, client := .sending other, server := .reading [] } ∧
          ∀ a ∈ (s.update j f).attempts, a.accepted = false ∧ a.server ≠ .connected) := by
      intro j f hj hf
      refine ⟨hc, he, by rw [HostSys.getElem?_update, if_neg hj]; exact hg, ?_⟩
      intro a ha
      rcases HostSys.mem_update ha with ⟨b, hb, rfl⟩ | ha
      · rw [(hf b).1, (hf b).2]; exact hall b (List.mem_of_getElem? hb)
      · exact hall a ha
    have hnot : ∀ f : Attempt → Attempt, f { hash := other, client := .sending other, server := .reading [] } = { hash := other, client := .sending other, server := .reading [] } →
        s.update 0 f = s := by
      intro f hf
      have : (s.update 0 f).attempts = s.attempts := by
        apply List.ext_getElem?
        intro j
        rw [HostSys.getElem?_update]
        split
        · next e => subst e; rw [hg, Option.map_some, hf]
        · rfl
      have h' : s.attempts.modify 0 f = s.attempts := this
      unfold HostSys.update
      rw [h']
    cases x with
    | connect hash' =>
      simp only [HostSys.step, he, Bool.false_eq_true, if_false]
      refine ⟨hc, trivial, ?_, ?_⟩
      · rw [List.getElem?_append_left (by
          rcases Nat.lt_or_ge 0 s.attempts.length with hx | hx
          · exact hx
          · rw [List.getElem?_eq_none hx] at hg; simp at hg)]
        exact hg
      · intro a ha
        simp only [List.mem_append, List.mem_singleton] at ha
        rcases ha with ha | rfl
        · exact hall a ha
        · exact ⟨rfl, by simp⟩
    | clientSend j k =>
      refine hupd j _ (by simp [HostStep.isOf] at hx; omega) (fun a => ?_)
      split
      · exact ⟨rfl, rfl⟩
      · refine ⟨?_, a.server_clientSend k⟩
        unfold Attempt.clientSend; split <;> (try split) <;> rfl
    | clientRecv j =>
      refine hupd j _ (by simp [HostStep.isOf] at hx; omega) (fun a => ?_)
      split
      · exact ⟨rfl, rfl⟩
      · refine ⟨?_, a.server_clientRecv⟩
        unfold Attempt.clientRecv; split <;> (try split) <;> (try split) <;> rfl
    | clientMessage j b =>
      refine hupd j _ (by simp [HostStep.isOf] at hx; omega) (fun a => ⟨?_, a.server_clientMessage b⟩)
      simp only [Attempt.clientMessage]; split <;> rfl
    | clientTake j b =>
      refine hupd j _ (by simp [HostStep.isOf] at hx; omega) (fun a => ⟨?_, a.server_clientTake b⟩)
      simp only [Attempt.clientTake]; split <;> rfl
    | clientClose j => exact hupd j _ (by simp [HostStep.isOf] at hx; omega) (fun a => ⟨rfl, rfl⟩)
    | server k =>
      have : s.step (.server k) = s := by
        simp only [HostSys.step, he, Bool.false_eq_true, if_false, HostSys.server, hc]
        rw [hnot _ (by simp [Attempt.serverRead])]
        simp only [HostSys.settle, hg, Option.map_some]
      rw [this]; exact ⟨hc, he, hg, hall⟩
    | serverMessage b =>
      have : s.step (.serverMessage b) = s := by
        simp only [HostSys.step, HostSys.withCurrent, hc]
        exact hnot _ (by simp [Attempt.serverMessage])
      rw [this]; exact ⟨hc, he, hg, hall⟩
    | serverTake k =>
      have : s.step (.serverTake k) = s := by
        simp only [HostSys.step, HostSys.withCurrent, hc]
        exact hnot _ (by simp [Attempt.serverTake])
      rw [this]; exact ⟨hc, he, hg, hall⟩
    | serverClose =>
      have : s.step .serverClose = s := by
        simp only [HostSys.step, HostSys.close, hc, hg, Option.map_some]
        simp
      rw [this]; exact ⟨hc, he, hg, hall⟩

/-! ### examples -/

namespace C90ex

def h1 : Bytes := [1, 2, 3, 4, 5, 6, 7, 8]
def h2 : Bytes := [1, 2, 3, 4, 5, 6, 7, 9]

/-- two programs of the same version; the second waits until the connection of the first is closed -/
def steps : List HostStep := [.connect h1, .connect h1, .clientSend 1 8, .server 0, .clientSend 0 3, .server 2, .server 8, .clientSend 0 8, .server 8, .clientRecv 0, .server 1, .clientRecv 0,
  .clientRecv 1, .clientMessage 0 [10, 11, 12], .serverTake 2, .serverMessage [20], .clientTake 0 5]

def round : List HostStep := [.clientRecv 1, .connect h2, .server 1, .clientSend 1 1]

example : ∀ x ∈ steps, x.Proper := by decide
example : Round 1 round := ⟨⟨1, by decide⟩, by decide, ⟨1, by decide⟩, by decide⟩
example : (HostSys.run h1 steps).attempts[0]? = 
    some ⟨h1, .connected, .connected, false, [12], [], true, [10, 11, 12], [10, 11], [20], [20]⟩ := by decide +kernel
example : (HostSys.run h1 steps).current = some 0 ∧ (HostSys.run h1 steps).backlog = [1] ∧
    ((HostSys.run h1 steps).attempts[1]?).map Attempt.client = some .waiting ∧
    (HostSys.run h1 (steps ++ [.serverClose])).current = none ∧ (HostSys.run h1 (steps ++ [.serverClose])).backlog.head? = some 1 ∧
    ((HostSys.run h1 (steps ++ [.serverClose] ++ (List.replicate 19 round).flatten)).attempts[1]?).map Attempt.client = some .connected := by decide +kernel
example : (HostSys.run h1 [.connect h2, .clientSend 0 8, .server 0]).current = some 0 ∧
    (HostSys.run h1 [.connect h2, .clientSend 0 8, .server 0, .server 8]).exited = true ∧
    ((HostSys.run h1 [.connect h2, .clientSend 0 8, .server 0, .server 8, .clientRecv 0]).attempts[0]?).map Attempt.client = some .failed := by decide +kernel
example : ∀ x ∈ [HostStep.connect h1, .clientSend 1 8, .server 8], x.isOf 0 = false := by decide

end C90ex

end KM
