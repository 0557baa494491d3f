import Verif.Model.Socket
import Verif.Props.Serial
/-!
# C84: messages get through the socket
-/
namespace KM

/-! ### sending -/

private theorem sendLoop_prefix (calls : List SendResult) (buffer : Bytes) :
    ∃ rest, (sendLoop calls buffer).1 ++ rest = buffer ∧ ((sendLoop calls buffer).2.2 = some true → rest = []) := by
  fun_induction sendLoop calls buffer with
  | case1 => exact ⟨[], rfl, fun _ => rfl⟩
  | case2 b bs => exact ⟨b :: bs, rfl, by simp⟩
  | case3 calls b bs ih => exact ih
  | case4 calls b bs ih => exact ih
  | case5 calls b bs => exact ⟨b :: bs, rfl, by simp⟩
  | case6 n calls b bs k r ih =>
    obtain ⟨rest, h1, h2⟩ := ih
    refine ⟨rest, ?_, h2⟩
    rw [List.append_assoc, h1, List.take_append_drop]

/-- **C84 (sending)** However the calls of `send` are interrupted and whatever part of the message they accept: what is accepted is the begin of
the message, and it is the whole message when sending succeeded. -/
theorem C84_sent (calls : List SendResult) (body : Bytes) :
    (∃ rest, (sendMessage calls body).1 ++ rest = frame body) ∧
    ((sendMessage calls body).2.2 = some true → (sendMessage calls body).1 = frame body) := by
  obtain ⟨r1, h1, h2⟩ := sendLoop_prefix calls (wrU32 body.length)
  unfold sendMessage frame
  split
  · next a calls' heq =>
    rw [heq] at h1 h2
    have := h2 rfl
    subst this
    simp only [List.append_nil] at h1
    obtain ⟨r2, h3, h4⟩ := sendLoop_prefix calls' body
    subst h1
    refine ⟨⟨r2, by simp only [List.append_assoc, h3]⟩, ?_⟩
    intro h
    have := h4 h
    subst this
    simp only [List.append_nil] at h3
    simp only [h3]
  · next r hne =>
    refine ⟨⟨r1 ++ body, by rw [← List.append_assoc, h1]⟩, ?_⟩
    intro h
    exfalso
    exact hne _ _ (by rw [← h])

/-- Sending fails only when the socket fails. -/
theorem C84_send_fails_only {calls : List SendResult} {body : Bytes} (h : (sendMessage calls body).2.2 = some false) :
    .failed ∈ calls := by
  have aux : ∀ (calls : List SendResult) (buffer : Bytes), (sendLoop calls buffer).2.2 = some false → .failed ∈ calls := by
    intro calls buffer
    fun_induction sendLoop calls buffer with
    | case1 => simp
    | case2 => simp
    | case3 _ _ _ ih => intro h; exact List.mem_cons_of_mem _ (ih h)
    | case4 _ _ _ ih => intro h; exact List.mem_cons_of_mem _ (ih h)
    | case5 => simp
    | case6 _ _ _ _ _ _ ih => intro h; exact List.mem_cons_of_mem _ (ih h)
  have sub : ∀ (calls : List SendResult) (buffer : Bytes), ∀ x ∈ (sendLoop calls buffer).2.1, x ∈ calls := by
    intro calls buffer
    fun_induction sendLoop calls buffer with
    | case1 => exact fun x h => h
    | case2 => simp
    | case3 _ _ _ ih => intro x h; exact List.mem_cons_of_mem _ (ih x h)
    | case4 _ _ _ ih => intro x h; exact List.mem_cons_of_mem _ (ih x h)
    | case5 => intro x h; exact List.mem_cons_of_mem _ h
    | case6 _ _ _ _ _ _ ih => intro x h; exact List.mem_cons_of_mem _ (ih x h)
  unfold sendMessage at h
  split at h
  · next a calls' heq =>
    have := sub calls (wrU32 body.length) .failed (by rw [heq]; exact aux calls' body h)
    exact this
  · exact aux _ _ h

/-! ### receiving -/

private theorem recvChars_spec {p len calls l q rest} (h : recvChars p len calls = some (some l, q, rest)) :
    ∃ used, calls = used ++ rest ∧ l ++ q.queue = p.queue ++ used.flatMap (·.arrived) ∧ l.length ≤ len ∧ (l.length < len → q.queue = []) ∧
      q.closed = (p.closed || used.any (·.closes)) := by
  induction calls generalizing p len l with
  | nil =>
    unfold recvChars at h
    split at h
    · next h0 =>
      simp only [Option.some.injEq, Prod.mk.injEq] at h
      obtain ⟨rfl, rfl, rfl⟩ := h
      exact ⟨[], rfl, by simp, by simp, by simp [h0], by simp⟩
    · simp at h
  | cons c calls ih =>
    unfold recvChars at h
    split at h
    · next h0 =>
      simp only [Option.some.injEq, Prod.mk.injEq] at h
      obtain ⟨rfl, rfl, rfl⟩ := h
      exact ⟨[], rfl, by simp, by simp, by simp [h0], by simp⟩
    · split at h
      · obtain ⟨used, h1, h2, h3, h4, h5⟩ := ih h
        exact ⟨c :: used, by rw [h1]; rfl, by rw [h2]; simp [Pipe.arrive], h3, h4, by rw [h5]; simp [Pipe.arrive, Bool.or_assoc]⟩
      · simp at h
      · next n _ =>
        simp only [] at h
        split at h
        · next he =>
          split at h
          · simp at h
          · simp only [Option.some.injEq, Prod.mk.injEq] at h
            obtain ⟨rfl, rfl, rfl⟩ := h
            refine ⟨[c], rfl, ?_, by simp, fun _ => List.isEmpty_iff.1 he, ?_⟩
            · simp [Pipe.arrive]
            · simp [Pipe.arrive]
        · split at h
          · next l' r h' =>
            simp only [Option.some.injEq, Prod.mk.injEq] at h
            obtain ⟨rfl, rfl⟩ := h
            obtain ⟨used, h1, h2, h3, h4, h5⟩ := ih h'
            refine ⟨c :: used, by rw [h1]; rfl, ?_, ?_, ?_, by rw [h5]; simp [Pipe.arrive, Bool.or_assoc]⟩
            · rw [List.append_assoc, h2]
              simp only [Pipe.arrive, List.flatMap_cons]
              rw [← List.append_assoc, List.take_append_drop, List.append_assoc]
            · rw [List.length_append, List.length_take]
              unfold receivedBytes at *
              omega
            · intro hlt
              apply h4
              rw [List.length_append, List.length_take] at hlt
              unfold receivedBytes at *
              omega
          · next hne =>
            exfalso
            exact hne _ _ h

private theorem recvBuffer_spec {p content size hs calls b q rest} (h : recvBuffer p content size hs calls = some (some b, q, rest)) :
    ∃ used, calls = used ++ rest ∧ b = content ++ (p.queue ++ used.flatMap (·.arrived)) ∧ q.queue = [] ∧
      q.closed = (p.closed || used.any (·.closes)) := by
  induction hn : calls.length using Nat.strongRecOn generalizing p content size calls with
  | ind n ih =>
  rw [recvBuffer] at h
  split at h
  · simp at h
  · simp at h
  · next l q' rest' h' =>
    obtain ⟨used, h1, h2, h3, h4, h5⟩ := recvChars_spec h'
    have hpos : 0 < grownSize content.length size - content.length := by
      unfold grownSize bufferGrowSize
      split <;> omega
    split at h
    · next he =>
      simp only [Option.some.injEq, Prod.mk.injEq] at h
      obtain ⟨rfl, rfl, rfl⟩ := h
      have hl : l = [] := List.isEmpty_iff.1 he
      subst hl
      have hq := h4 (by simpa using hpos)
      refine ⟨used, h1, ?_, hq, h5⟩
      rw [← h2, hq]; simp
    · split at h
      · obtain ⟨used', g1, g2, g3, g4⟩ := ih rest'.length (by
          have := (recvChars_length h').2 (by omega)
          omega) h rfl
        refine ⟨used ++ used', by rw [h1, g1, List.append_assoc], ?_, g3, ?_⟩
        · rw [g2, List.flatMap_append, ← List.append_assoc p.queue, ← h2]
          simp
        · rw [g4, h5, List.any_append, Bool.or_assoc]
      · simp at h

/-- receiving fails only when the socket fails or the other side closed the connection -/
private theorem recvChars_fails {p len calls q rest} (h : recvChars p len calls = some (none, q, rest)) :
    p.closed = true ∨ ∃ c ∈ calls, c.result = .failed ∨ c.closes = true := by
  induction calls generalizing p len with
  | nil =>
    unfold recvChars at h
    split at h <;> simp at h
  | cons c calls ih =>
    have lift : ((p.arrive c).closed = true ∨ ∃ c ∈ calls, c.result = .failed ∨ c.closes = true) →
        p.closed = true ∨ ∃ x ∈ c :: calls, x.result = .failed ∨ x.closes = true := by
      rintro (hc | ⟨x, h1, h2⟩)
      · simp only [Pipe.arrive, Bool.or_eq_true] at hc
        rcases hc with hc | hc
        · exact Or.inl hc
        · exact Or.inr ⟨c, by simp, Or.inr hc⟩
      · exact Or.inr ⟨x, by simp [h1], h2⟩
    unfold recvChars at h
    split at h
    · simp at h
    · split at h
      · exact lift (ih h)
      · next hf => exact Or.inr ⟨c, by simp, Or.inl hf⟩
      · simp only [] at h
        split at h
        · split at h
          · next hc => exact lift (Or.inl hc)
          · simp at h
        · split at h
          · simp at h
          · exact lift (by simpa using ih h)

private theorem recvBuffer_fails {p content size hs calls q rest} (h : recvBuffer p content size hs calls = some (none, q, rest)) :
    p.closed = true ∨ ∃ c ∈ calls, c.result = .failed ∨ c.closes = true := by
  induction hn : calls.length using Nat.strongRecOn generalizing p content size calls with
  | ind n ih =>
  rw [recvBuffer] at h
  split at h
  · simp at h
  · next h' => exact recvChars_fails h'
  · next l q' rest' h' =>
    split at h
    · simp at h
    · split at h
      · obtain ⟨used, h1, _, _, _, h5⟩ := recvChars_spec h'
        have hpos : 0 < grownSize content.length size - content.length := by
          unfold grownSize bufferGrowSize
          split <;> omega
        rcases ih rest'.length (by
          have := (recvChars_length h').2 (by omega)
          omega) h rfl with hc | ⟨c, hc1, hc2⟩
        · rw [h5, Bool.or_eq_true, List.any_eq_true] at hc
          rcases hc with hc | ⟨c, hc1, hc2⟩
          · exact Or.inl hc
          · exact Or.inr ⟨c, by rw [h1]; simp [hc1], Or.inr hc2⟩
        · exact Or.inr ⟨c, by rw [h1]; simp [hc1], hc2⟩
      · simp at h

/-- what a call of `read_messages` does, when the connection is not closed and does not fail -/
private theorem readMessages_spec {r : Rd α} {p rest calls res q more} (h : readMessages r p rest calls = some (res, q, more))
    (hc : p.closed = false) (hcalls : ∀ c ∈ calls, c.result ≠ .failed ∧ c.closes = false) :
    ∃ used, calls = used ++ more ∧ res = receive r rest (p.queue ++ used.flatMap (·.arrived)) ∧ q = { queue := [], closed := false } := by
  unfold readMessages at h
  split at h
  · simp at h
  · next q' hf =>
    exfalso
    rcases recvBuffer_fails hf with hf | ⟨c, h1, h2 | h2⟩
    · rw [hc] at hf; simp at hf
    · exact (hcalls c h1).1 h2
    · rw [(hcalls c h1).2] at h2; simp at h2
  · next buffer q' hf =>
    have key : ∀ more', (q'.2 = more') → ∃ used, calls = used ++ more' ∧ buffer = rest ++ (p.queue ++ used.flatMap (·.arrived)) ∧
        q'.1 = { queue := [], closed := false } := by
      intro more' hm
      obtain ⟨used, h1, h2, h3, h4⟩ := recvBuffer_spec hf
      refine ⟨used, by rw [h1, hm], h2, ?_⟩
      have h5 : q'.1.closed = false := by
        rw [h4, hc, Bool.false_or, List.any_eq_false]
        intro c hc'
        rw [(hcalls c (by rw [h1]; simp [hc'])).2]
        simp
      obtain ⟨⟨qq, qc⟩, q2⟩ := q'
      simp only at h3 h5
      subst h3 h5
      rfl
    split at h
    · next l d hl =>
      simp only [Option.some.injEq, Prod.mk.injEq] at h
      obtain ⟨rfl, rfl⟩ := h
      obtain ⟨used, h1, h2, h3⟩ := key more rfl
      refine ⟨used, h1, ?_, h3⟩
      unfold receive
      rw [← h2, hl]
    · next l d hl =>
      simp only [Option.some.injEq, Prod.mk.injEq] at h
      obtain ⟨rfl, rfl⟩ := h
      obtain ⟨used, h1, h2, h3⟩ := key more rfl
      refine ⟨used, h1, ?_, h3⟩
      unfold receive
      rw [← h2, hl]

private theorem readAll_spec {r : Rd α} {rest callss res} (h : readAll r {} rest callss = some res)
    (hcalls : ∀ calls ∈ callss, ∀ c ∈ calls, c.result ≠ .failed ∧ c.closes = false) :
    ∃ chunks later, res = receiveAll r rest chunks ∧ chunks.flatten ++ later = callss.flatten.flatMap (·.arrived) ∧
      (res.2 ≠ none → later = []) := by
  induction callss generalizing rest res with
  | nil =>
    simp only [readAll, Option.some.injEq] at h
    exact ⟨[], [], by rw [← h]; rfl, by simp, by simp⟩
  | cons calls more ih =>
    unfold readAll at h
    split at h
    · next l q mm hm =>
      obtain ⟨used, h1, h2, h3⟩ := readMessages_spec hm rfl (hcalls calls (by simp))
      simp only [Option.some.injEq] at h
      refine ⟨[used.flatMap (·.arrived)], mm.flatMap (·.arrived) ++ more.flatten.flatMap (·.arrived), ?_, ?_, ?_⟩
      · simp only [List.nil_append] at h2
        rw [← h, receiveAll, ← h2]
      · rw [h1]; simp
      · rw [← h]; simp
    · next l rest' q hm =>
      obtain ⟨used, h1, h2, h3⟩ := readMessages_spec hm rfl (hcalls calls (by simp))
      obtain ⟨x, hx1, hx2⟩ := Option.map_eq_some_iff.1 h
      subst h3
      obtain ⟨chunks, later, g1, g2, g3⟩ := ih hx1 (fun c hc => hcalls c (by simp [hc]))
      simp only [List.append_nil] at h1
      subst h1
      refine ⟨calls.flatMap (·.arrived) :: chunks, later, ?_, ?_, ?_⟩
      · simp only [List.nil_append] at h2
        rw [← hx2, receiveAll, ← h2, g1]
      · rw [List.flatten_cons, List.flatten_cons, List.flatMap_append, List.append_assoc, g2]
      · rw [← hx2]; exact g3
    · simp at h

/-- **C84 (delivery)** Messages, each sent by a call of `send_message` which succeeded - whatever parts the socket accepted at a time and however
often it was interrupted. Calls of `read_messages`, of which each ended - whatever has arrived at the time of each of the calls of `recv`, however
little these returned and however often they were interrupted - while the connection neither failed nor was closed. When the bytes which arrived
are the begin of the ones which were accepted, then what is handled are the first messages: each which arrived completely, in order, once. No
other message is handled, and the connection does not break. -/
theorem C84_delivered {r : Rd α} {sent : List (List SendResult × Bytes × α)} {callss : List (List RecvCall)} {under_way : Bytes} {res}
    (hmean : ∀ s ∈ sent, s.2.1.length < 2 ^ 32 ∧ Reads r s.2.1 s.2.2)
    (hsent : ∀ s ∈ sent, (sendMessage s.1 s.2.1).2.2 = some true)
    (hcalls : ∀ calls ∈ callss, ∀ c ∈ calls, c.result ≠ .failed ∧ c.closes = false)
    (harrived : callss.flatten.flatMap (·.arrived) ++ under_way = sent.flatMap (fun s => (sendMessage s.1 s.2.1).1))
    (h : readAll r {} [] callss = some res) :
    ∃ done todo rest, sent = done ++ todo ∧ res = (done.map (·.2.2), some rest) ∧
      rest ++ under_way = todo.flatMap (fun s => frame s.2.1) ∧ Incomplete rest := by
  obtain ⟨chunks, later, h1, h2, h3⟩ := readAll_spec h hcalls
  have hframes : sent.flatMap (fun s => (sendMessage s.1 s.2.1).1) = (sent.map (·.2)).flatMap (fun m => frame m.1) ++ [] := by
    rw [List.append_nil, List.flatMap_map]
    clear harrived
    induction sent with
    | nil => rfl
    | cons s sent ih =>
      rw [List.flatMap_cons, List.flatMap_cons, ih (fun x hx => hmean x (by simp [hx])) (fun x hx => hsent x (by simp [hx])),
        (C84_sent s.1 s.2.1).2 (hsent s (by simp))]
  rw [hframes, ← h2, List.append_assoc] at harrived
  obtain ⟨done, todo, rest, g1, g2, g3, g4⟩ := C30_prompt (r := r) (ms := sent.map (·.2)) (p := []) (by
    intro m hm
    obtain ⟨s, hs, rfl⟩ := List.mem_map.1 hm
    exact hmean s hs) Incomplete.nil harrived
  obtain ⟨done', todo', rfl, rfl, rfl⟩ := List.map_eq_append_iff.1 g1
  have hlater := h3 (by rw [h1, g2]; simp)
  subst hlater
  refine ⟨done', todo', rest, rfl, ?_, ?_, g4⟩
  · rw [h1, g2]; simp
  · simpa [List.flatMap_map] using g3

/-! ### calls of `read_messages` end -/

/-- calls of `recv`, of which each returns something when something is there; nothing arrives any more -/
def Quiet (calls : List RecvCall) : Prop := ∀ c ∈ calls, c.arrived = [] ∧ c.closes = false ∧ ∃ n, c.result = .ready n

private theorem recvChars_quiet {calls : List RecvCall} {queue : Bytes} {len : Nat} (hq : Quiet calls)
    (h : min len queue.length + 1 ≤ calls.length) :
    ∃ rest, recvChars { queue := queue, closed := false } len calls =
        some (some (queue.take len), { queue := queue.drop len, closed := false }, rest) ∧ Quiet rest ∧
      calls.length ≤ rest.length + min len queue.length + (if queue.length < len then 1 else 0) := by
  induction calls generalizing queue len with
  | nil => simp at h
  | cons c calls ih =>
    obtain ⟨ha, hcl, n, hn⟩ := hq c (by simp)
    have hq' : Quiet calls := fun c hc => hq c (by simp [hc])
    have harr : ({ queue := queue, closed := false } : Pipe).arrive c = { queue := queue, closed := false } := by
      simp [Pipe.arrive, ha, hcl]
    unfold recvChars
    split
    · next h0 =>
      subst h0
      exact ⟨c :: calls, by simp, hq, by simp⟩
    · rw [hn]
      simp only [harr]
      cases queue with
      | nil =>
        refine ⟨calls, by simp, hq', ?_⟩
        simp only [List.length_cons, List.length_nil]
        split
        · omega
        · omega
      | cons b bs =>
        simp only [List.isEmpty_cons, Bool.false_eq_true, if_false]
        obtain ⟨k, hk⟩ : ∃ k, k = receivedBytes n len (b :: bs).length := ⟨_, rfl⟩
        rw [← hk]
        have hk1 : 0 < k ∧ k ≤ len ∧ k ≤ (b :: bs).length := by
          rw [hk]
          unfold receivedBytes
          simp only [List.length_cons]
          omega
        obtain ⟨rest, g1, g2, g3⟩ := ih (queue := (b :: bs).drop k) (len := len - k) hq' (by
          simp only [List.length_drop, List.length_cons] at *
          omega)
        refine ⟨rest, ?_, g2, ?_⟩
        · rw [g1]
          have e : k + (len - k) = len := by omega
          have e1 : (b :: bs).take k ++ ((b :: bs).drop k).take (len - k) = (b :: bs).take len := by
            rw [← List.take_add, e]
          have e2 : ((b :: bs).drop k).drop (len - k) = (b :: bs).drop len := by
            rw [List.drop_drop, e]
          simp only [e1, e2]
        · simp only [List.length_drop, List.length_cons] at *
          split at g3 <;> split <;> omega

private theorem recvBuffer_quiet {calls : List RecvCall} {queue content : Bytes} {size : Nat} {hs} (hq : Quiet calls)
    (h : (queue = [] ∧ 1 ≤ calls.length) ∨ queue.length + 2 ≤ calls.length) :
    ∃ rest, recvBuffer { queue := queue, closed := false } content size hs calls =
      some (some (content ++ queue), { queue := [], closed := false }, rest) := by
  induction hn : calls.length using Nat.strongRecOn generalizing queue content size calls with
  | ind n ih =>
  subst hn
  obtain ⟨len, hlen⟩ : ∃ len, len = grownSize content.length size - content.length := ⟨_, rfl⟩
  have hpos : 0 < len := by
    rw [hlen]
    unfold grownSize bufferGrowSize
    split <;> omega
  obtain ⟨rest, g1, g2, g3⟩ := recvChars_quiet (queue := queue) (len := len) hq (by
    rcases h with ⟨rfl, h⟩ | h
    · simpa using h
    · omega)
  have hless := (recvChars_length g1).2 (by omega)
  rw [recvBuffer]
  split
  · next heq => rw [← hlen, g1] at heq; simp at heq
  · next heq => rw [← hlen, g1] at heq; simp at heq
  · next l q more heq =>
    rw [← hlen, g1] at heq
    simp only [Option.some.injEq, Prod.mk.injEq] at heq
    obtain ⟨rfl, rfl, rfl⟩ := heq
    split
    · next he =>
      have : queue = [] := by
        cases queue with
        | nil => rfl
        | cons b bs =>
          exfalso
          obtain ⟨m, hm⟩ : ∃ m, len = m + 1 := ⟨len - 1, by omega⟩
          rw [hm] at he
          simp at he
      subst this
      exact ⟨rest, by simp⟩
    · next he =>
      have hne : queue ≠ [] := by
        rintro rfl
        simp at he
      have hq0 : 0 < queue.length := List.length_pos_iff.2 hne
      split
      · obtain ⟨more, hm⟩ := ih rest.length hless (queue := queue.drop len) (content := content ++ queue.take len)
          (size := grownSize content.length size) (hs := by rw [List.length_append]; assumption) g2 (by
            rcases h with ⟨h, _⟩ | h
            · exact absurd h hne
            · by_cases hl : len < queue.length
              · right
                rw [List.length_drop]
                rw [if_neg (by omega)] at g3
                omega
              · left
                refine ⟨List.drop_eq_nil_of_le (by omega), ?_⟩
                split at g3 <;> omega) rfl
        refine ⟨more, ?_⟩
        rw [hm, List.append_assoc, List.take_append_drop]
      · next hc =>
        exfalso
        apply hc
        rw [List.length_take]
        omega

/-- **C84 (promptness)** A call of `read_messages` does not wait for more than what has arrived: when nothing arrives any more it ends, after at
most two calls of `recv` more than there are bytes, and it handled everything which has arrived. -/
theorem C84_returns {r : Rd α} {calls : List RecvCall} {queue rest : Bytes} (hq : Quiet calls) (h : queue.length + 2 ≤ calls.length) :
    ∃ more, readMessages r { queue := queue, closed := false } rest calls =
      some (receive r rest queue, { queue := [], closed := false }, more) := by
  obtain ⟨more, hm⟩ := recvBuffer_quiet (content := rest) (size := rest.length) (hs := Nat.le_refl _) hq (Or.inr h)
  refine ⟨more, ?_⟩
  unfold readMessages
  rw [hm]
  unfold receive
  simp only
  split <;> simp_all

/-- **C84 (conversation)** Whatever the client sends: when all of it was accepted by the socket and all of it has arrived, then the server is
told exactly this, in order. -/
theorem C84_conversation {ms : List (List SendResult × ToServer)} {callss : List (List RecvCall)} {res}
    (hms : ∀ m ∈ ms, m.2.FitsMsg ∧ m.2.body.length < 2 ^ 32)
    (hsent : ∀ m ∈ ms, (sendMessage m.1 m.2.body).2.2 = some true)
    (hcalls : ∀ calls ∈ callss, ∀ c ∈ calls, c.result ≠ .failed ∧ c.closes = false)
    (harrived : callss.flatten.flatMap (·.arrived) = ms.flatMap (fun m => (sendMessage m.1 m.2.body).1))
    (h : readAll readFromClient {} [] callss = some res) :
    ∃ rs, AllMean (ms.map (·.2)) rs ∧ res = (rs, some []) := by
  obtain ⟨chunks, later, h1, h2, h3⟩ := readAll_spec h hcalls
  have hframes : ms.flatMap (fun m => (sendMessage m.1 m.2.body).1) = (ms.map (·.2)).flatMap (fun m => frame m.body) := by
    rw [List.flatMap_map]
    clear harrived
    induction ms with
    | nil => rfl
    | cons s ms ih =>
      rw [List.flatMap_cons, List.flatMap_cons, ih (fun x hx => hms x (by simp [hx])) (fun x hx => hsent x (by simp [hx])),
        (C84_sent s.1 s.2.body).2 (hsent s (by simp))]
  -- the meanings of the messages
  have : ∃ l : List (Bytes × FromClient), (∀ m ∈ l, m.1.length < 2 ^ 32 ∧ Reads readFromClient m.1 m.2) ∧
      AllMean (ms.map (·.2)) (l.map (·.2)) ∧ l.flatMap (fun m => frame m.1) = (ms.map (·.2)).flatMap (fun m => frame m.body) := by
    clear hframes harrived hsent
    induction ms with
    | nil => exact ⟨[], by simp, trivial, rfl⟩
    | cons m ms ih =>
      obtain ⟨l, h1, h2, h3⟩ := ih (fun n hn => hms n (List.mem_cons_of_mem _ hn))
      obtain ⟨hf, hs⟩ := hms m (List.mem_cons_self ..)
      obtain ⟨r, g1, g2⟩ := Reads.fromClient hf
      refine ⟨(m.2.body, r) :: l, ?_, ⟨g1, h2⟩, ?_⟩
      · intro x hx
        rcases List.mem_cons.1 hx with rfl | hx
        · exact ⟨hs, g2⟩
        · exact h1 x hx
      · rw [List.flatMap_cons, List.map_cons, List.flatMap_cons, h3]
  obtain ⟨l, g1, g2, g3⟩ := this
  obtain ⟨done, todo, rest, k1, k2, k3, k4⟩ := C30_prompt (r := readFromClient) (ms := l) (p := []) (chunks := chunks) (future := later) g1
    Incomplete.nil (by rw [h2, harrived, hframes, g3, List.append_nil])
  have hlater := h3 (by rw [h1, k2]; simp)
  subst hlater
  rw [List.append_nil] at h2
  refine ⟨_, g2, ?_⟩
  rw [h1]
  exact C30_any_chunks (r := readFromClient) (p := []) g1 Incomplete.nil (by rw [h2, harrived, hframes, g3, List.append_nil])

/-! ### examples -/

namespace SocketExample

/-- a sequence of keys and a request, sent a few bytes at a time, with interruptions -/
def sent : List (List SendResult × ToServer) :=
  [([.accepted 3, .interrupted, .accepted 0, .accepted 100, .wouldBlock, .accepted 4], .injectInput [⟨30, .Down, 0⟩, ⟨30, .Up, 0⟩]),
   ([.accepted 4, .wouldBlock, .accepted 1], .validateState)]

def bytes : Bytes := sent.flatMap (fun m => (sendMessage m.1 m.2.body).1)

/-- the calls of `recv` in two calls of `read_messages`: the second of the messages is split -/
def calls : List (List RecvCall) :=
  [[⟨bytes.take 7, false, .ready 5⟩, ⟨[], false, .interrupted⟩, ⟨(bytes.drop 7).take 12, false, .ready 100⟩, ⟨[], false, .ready 1⟩,
    ⟨[], false, .ready 1⟩],
   [⟨bytes.drop 19, false, .ready 100⟩, ⟨[], false, .ready 1⟩, ⟨[], false, .ready 1⟩]]

end SocketExample

/-- The hypotheses of `C84_conversation` (and of `C84_delivered`) are met. -/
example : (∀ m ∈ SocketExample.sent, (sendMessage m.1 m.2.body).2.2 = some true) ∧
    (∀ calls ∈ SocketExample.calls, ∀ c ∈ calls, c.result ≠ .failed ∧ c.closes = false) ∧
    SocketExample.calls.flatten.flatMap (·.arrived) = SocketExample.bytes ∧
    readAll readFromClient {} [] SocketExample.calls =
      some ([.injectInput [⟨30, .Down, 0⟩, ⟨30, .Up, 0⟩], .validateState], some []) ∧
    readAll readFromClient {} [] (SocketExample.calls.take 1) =
      some ([.injectInput [⟨30, .Down, 0⟩, ⟨30, .Up, 0⟩]], some [1, 0]) := by decide +kernel

/-- A quiet socket, as in `C84_returns` -/
example : Quiet (List.replicate 20 { result := .ready 3 }) ∧ (frame [3]).length + 2 ≤ (List.replicate 20 ({ result := .ready 3 } : RecvCall)).length ∧
    readMessages readFromClient { queue := frame [3], closed := false } [] (List.replicate 20 { result := .ready 3 }) =
      some (([.validateState], some []), {}, List.replicate 16 { result := .ready 3 }) := by
  refine ⟨?_, by decide +kernel, by decide +kernel⟩
  intro c hc
  obtain ⟨_, rfl⟩ := List.mem_replicate.1 hc
  exact ⟨rfl, rfl, 3, rfl⟩

/-- sending, of which a part is accepted before the socket fails -/
example : sendMessage [.accepted 4, .failed] [3, 4] = ([2, 0, 0, 0], [], some false) ∧ [2, 0, 0, 0] ++ [3, 4] = frame [3, 4] := by
  decide +kernel

/-- **C84** That the connection is not closed is necessary: a message which was sent completely, right before the other side closed the connection,
is lost when the receiver is not faster - it was received, but as the connection is noticed to be closed in the same call of
`read_messages`, it is not handled. When the receiver is faster then it is handled. -/
theorem C84_close_counterexample :
    (sendMessage [.accepted 4, .accepted 1] [3]).2.2 = some true ∧
    readAll readFromClient {} [] [[⟨(sendMessage [.accepted 4, .accepted 1] [3]).1, true, .ready 100⟩, ⟨[], false, .ready 100⟩]] = some ([], none) ∧
    readAll readFromClient {} [] [[⟨(sendMessage [.accepted 4, .accepted 1] [3]).1, false, .ready 100⟩, ⟨[], false, .ready 100⟩,
      ⟨[], false, .ready 100⟩], [⟨[], true, .ready 100⟩]] = some ([.validateState], none) := by decide +kernel

end KM
