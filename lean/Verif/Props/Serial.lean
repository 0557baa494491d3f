import Verif.Lemmas.Framing
/-!
# C29, C30, C31: the messages between client and server
-/
namespace KM

/-! ## C29 -/

/-- **C29** A message which the client sends is received by the server as what it means: a
configuration with the same device filters, directives and contexts, grouped into the stages of the
configuration file, the other messages with the same content; it is handled at once and nothing
is left over. -/
theorem C29_client_to_server {m : ToServer} (h : m.FitsMsg) (hs : m.body.length < 2 ^ 32) :
    ∃ r, m.Means r ∧ receive readFromClient [] (frame m.body) = ([r], some []) := by
  obtain ⟨r, h1, h2⟩ := Reads.fromClient h
  refine ⟨r, h1, ?_⟩
  exact receive_wire (ms := [(m.body, r)]) (by simpa [Sound] using ⟨hs, h2⟩)
    (by simp [wire]) Incomplete.nil

/-- **C29** A message which the server sends is received by the client with the same content. -/
theorem C29_server_to_client {m : ToClient} (h : m.FitsMsg) (hs : m.body.length < 2 ^ 32) :
    receive readFromServer [] (frame m.body) = ([some m], some []) :=
  receive_wire (ms := [(m.body, some m)]) (by simpa [Sound] using ⟨hs, Reads.fromServer h⟩)
    (by simp [wire]) Incomplete.nil

theorem markFirst_cons_append {x y : List Context} {t u : List (Bool × Context)}
    (h : markFirst x ++ t = markFirst y ++ u) (hx : x ≠ []) (hy : y ≠ [])
    (ht : ∀ p ∈ t.head?, p.1 = true) (hu : ∀ p ∈ u.head?, p.1 = true) : x = y ∧ t = u := by
  obtain ⟨a, x, rfl⟩ := List.exists_cons_of_ne_nil hx
  obtain ⟨b, y, rfl⟩ := List.exists_cons_of_ne_nil hy
  simp only [markFirst, List.cons_append, List.cons.injEq, Prod.mk.injEq, true_and] at h ⊢
  obtain ⟨rfl, h⟩ := h
  simp only [true_and]
  clear hx hy
  induction x generalizing y with
  | nil =>
    cases y with
    | nil => exact ⟨rfl, h⟩
    | cons c y =>
      simp only [List.map_nil, List.nil_append, List.map_cons, List.cons_append] at h
      subst h
      exact absurd (ht _ rfl) (by simp)
  | cons c x ih =>
    cases y with
    | nil =>
      simp only [List.map_nil, List.nil_append, List.map_cons, List.cons_append] at h
      subst h
      exact absurd (hu _ rfl) (by simp)
    | cons c' y =>
      simp only [List.map_cons, List.cons_append, List.cons.injEq, Prod.mk.injEq, true_and] at h
      obtain ⟨rfl, h⟩ := h
      obtain ⟨rfl, ht⟩ := ih y h
      exact ⟨rfl, ht⟩

theorem markFirst_head (l : List (List Context)) (h : ∀ x ∈ l, x ≠ []) :
    ∀ p ∈ (l.flatMap markFirst).head?, p.1 = true := by
  cases l with
  | nil => simp
  | cons x l =>
    obtain ⟨a, x, rfl⟩ := List.exists_cons_of_ne_nil (h _ (List.mem_cons_self ..))
    simp [markFirst]

/-- **C29** The stages of a configuration are determined by the specification. -/
theorem C29_stages_determined {l : List CContext} {s t : List (List Context)}
    (h1 : StagesOf l s) (h2 : StagesOf l t) : s = t := by
  obtain ⟨hs, h1⟩ := h1
  obtain ⟨ht, h2⟩ := h2
  have h := h1.trans h2.symm
  clear h1 h2
  induction s generalizing t with
  | nil =>
    cases t with
    | nil => rfl
    | cons y t =>
      obtain ⟨a, y, rfl⟩ := List.exists_cons_of_ne_nil (ht _ (List.mem_cons_self ..))
      simp [markFirst] at h
  | cons x s ih =>
    cases t with
    | nil =>
      obtain ⟨a, x, rfl⟩ := List.exists_cons_of_ne_nil (hs _ (List.mem_cons_self ..))
      simp [markFirst] at h
    | cons y t =>
      simp only [List.flatMap_cons] at h
      have hs' := fun z hz => hs z (List.mem_cons_of_mem _ hz)
      have ht' := fun z hz => ht z (List.mem_cons_of_mem _ hz)
      obtain ⟨rfl, h'⟩ := markFirst_cons_append h (hs _ (List.mem_cons_self ..))
        (ht _ (List.mem_cons_self ..)) (markFirst_head s hs') (markFirst_head t ht')
      have hs2 : s = t := ih hs' ht' h'
      rw [hs2]

/-- A configuration with two stages: the first maps A to B in one of two contexts, the second
has a device filter. -/
def C29_config : Config :=
  { contexts :=
      [{ inputs := [⟨[⟨30, .Down, 0⟩], 0⟩], outputs := [[⟨48, .Down, 0⟩, ⟨0xF001, .Not, 500⟩]] },
       { commandOutputs := [⟨[⟨48, .Down, 0⟩], -3⟩], modifierFilter := [⟨42, .Down, 0⟩],
         fallthrough := true },
       { beginStage := true, deviceFilter := ⟨"/Foo/i".toList, true, true⟩,
         invertModifierFilter := true }]
    grabDeviceFilters := [{ string := "Bar".toList, byId := true }]
    serverDirectives := ["x".toList] }

example : (ToServer.config C29_config).FitsMsg ∧ C29_config.contexts.length = 3 ∧
    ∃ a b c, StagesOf C29_config.contexts [[a, b], [c]] ∧
    receive readFromClient [] (frame (ToServer.config C29_config).body) =
      ([.configuration C29_config.grabDeviceFilters [[a, b], [c]] ["x".toList]], some []) := by
  have hf : ∀ l : KeySequence, l.length < 100 → (∀ e ∈ l, e.key < 2 ^ 16 ∧ e.value < 2 ^ 12) →
      Fits FitsEvent l := fun l h1 h2 => ⟨Nat.lt_trans h1 (by decide), h2⟩
  refine ⟨⟨⟨by decide, ?_⟩, ⟨by decide, ?_⟩, ⟨by decide, ?_⟩⟩, rfl, _, _, _,
    ⟨?_, rfl⟩, ?_⟩
  · intro f hf
    simp only [C29_config, List.mem_singleton] at hf
    subst hf
    exact ⟨⟨by decide, by decide⟩, by decide⟩
  · intro c hc
    simp only [C29_config, List.mem_cons, List.not_mem_nil, or_false] at hc
    have hfe : FitsFilter {} := ⟨⟨by decide, by decide⟩, by decide⟩
    rcases hc with rfl | rfl | rfl
    · refine ⟨⟨by decide, ?_⟩, ⟨by decide, ?_⟩, ⟨by decide, by simp⟩, hfe, hfe, hf _ (by decide) (by simp)⟩
      · intro i hi
        simp only [List.mem_singleton] at hi
        subst hi
        exact ⟨hf _ (by decide) (by decide), by decide, by decide⟩
      · intro i hi
        simp only [List.mem_singleton] at hi
        subst hi
        exact hf _ (by decide) (by decide)
    · refine ⟨⟨by decide, by simp⟩, ⟨by decide, by simp⟩, ⟨by decide, ?_⟩, hfe, hfe,
        hf _ (by decide) (by decide)⟩
      intro i hi
      simp only [List.mem_singleton] at hi
      subst hi
      exact ⟨hf _ (by decide) (by decide), by decide, by decide⟩
    · exact ⟨⟨by decide, by simp⟩, ⟨by decide, by simp⟩, ⟨by decide, by simp⟩,
        ⟨⟨by decide, by decide⟩, by decide⟩, hfe, hf _ (by decide) (by decide)⟩
  · intro s hs
    simp only [C29_config, List.mem_singleton] at hs
    subst hs
    exact ⟨by decide, by decide⟩
  · simp
  · decide +kernel

example : (ToClient.nextKeyInfo 30 ⟨"Keyboard".toList, "id".toList⟩).FitsMsg ∧
    (ToClient.nextKeyInfo 30 ⟨"Keyboard".toList, "id".toList⟩).body.length = 21 :=
  ⟨⟨by decide, ⟨by decide, by decide⟩, ⟨by decide, by decide⟩⟩, by decide⟩

/-! ## C30 -/

/-- **C30** However the bytes of a sequence of messages, followed by an incomplete message, are split
into the chunks which are received, exactly these messages are handled, in order, and the
bytes of the incomplete message are kept. -/
theorem C30_any_chunks {r : Rd α} {ms : List (Bytes × α)} {p : Bytes} {chunks : List Bytes}
    (hms : ∀ m ∈ ms, m.1.length < 2 ^ 32 ∧ Reads r m.1 m.2) (hp : Incomplete p)
    (h : chunks.flatten = ms.flatMap (fun m => frame m.1) ++ p) :
    receiveAll r [] chunks = (ms.map (·.2), some p) := by
  obtain ⟨done, todo, rest, h1, h2, h3, h4⟩ :=
    receiveAll_wire (r := r) hms (future := []) Incomplete.nil hp
      (by rw [List.nil_append, List.append_nil]; exact h)
  rw [List.append_nil] at h3
  have : todo = [] := wire_incomplete (p := p)
    (fun m hm => (hms m (by simp [h1, hm])).1) (h3 ▸ h4)
  subst this
  rw [List.append_nil] at h1
  subst h1
  rw [h2, h3]
  rfl

/-- **C30** Messages are not delayed: after some of the chunks, the messages which are completely
received have all been handled, and what remains is not yet a complete message. -/
theorem C30_prompt {r : Rd α} {ms : List (Bytes × α)} {p future : Bytes} {chunks : List Bytes}
    (hms : ∀ m ∈ ms, m.1.length < 2 ^ 32 ∧ Reads r m.1 m.2) (hp : Incomplete p)
    (h : chunks.flatten ++ future = ms.flatMap (fun m => frame m.1) ++ p) :
    ∃ done todo rest, ms = done ++ todo ∧
      receiveAll r [] chunks = (done.map (·.2), some rest) ∧
      rest ++ future = todo.flatMap (fun m => frame m.1) ++ p ∧ Incomplete rest :=
  receiveAll_wire (r := r) hms Incomplete.nil hp (by rw [List.nil_append]; exact h)

/-- What is received of a sequence of messages, each as what it means -/
def AllMean : List ToServer → List FromClient → Prop
  | [], [] => True
  | m :: ms, r :: rs => m.Means r ∧ AllMean ms rs
  | _, _ => False

/-- **C29, C30** Whatever the client sends, and however it is split into chunks, the server
is told exactly the same, in order. -/
theorem C30_conversation {ms : List ToServer} {chunks : List Bytes}
    (hms : ∀ m ∈ ms, m.FitsMsg ∧ m.body.length < 2 ^ 32)
    (h : chunks.flatten = ms.flatMap (fun m => frame m.body)) :
    ∃ rs, AllMean ms rs ∧ receiveAll readFromClient [] chunks = (rs, some []) := by
  have : ∃ l : List (Bytes × FromClient), (∀ m ∈ l, Sound readFromClient m) ∧
      AllMean ms (l.map (·.2)) ∧ wire l = ms.flatMap (fun m => frame m.body) := by
    clear h
    induction ms with
    | nil => exact ⟨[], by simp, trivial, rfl⟩
    | cons m ms ih =>
      obtain ⟨l, h1, h2, h3⟩ := ih (fun n hn => hms n (List.mem_cons_of_mem _ hn))
      obtain ⟨hf, hs⟩ := hms m (List.mem_cons_self ..)
      obtain ⟨r, g1, g2⟩ := Reads.fromClient hf
      refine ⟨(m.body, r) :: l, ?_, ⟨g1, h2⟩, ?_⟩
      · intro x hx
        rcases List.mem_cons.1 hx with rfl | hx
        · exact ⟨hs, g2⟩
        · exact h1 x hx
      · show frame m.body ++ wire l = frame m.body ++ _
        rw [h3]; rfl
  obtain ⟨l, h1, h2, h3⟩ := this
  refine ⟨_, h2, ?_⟩
  exact C30_any_chunks (r := readFromClient) (p := []) h1 Incomplete.nil
    (by rw [List.append_nil]; exact h.trans h3.symm)

/-- Two messages received in three chunks, the first one of which ends within the size of the
second message -/
example : receiveAll readFromClient []
    [frame (ToServer.injectInput [⟨30, .Down, 0⟩]).body ++ [1], [0, 0], [0, 3]] =
      ([.injectInput [⟨30, .Down, 0⟩], .validateState], some []) ∧
    [frame (ToServer.injectInput [⟨30, .Down, 0⟩]).body ++ [1], [0, 0], [0, 3]].flatten =
      [ToServer.injectInput [⟨30, .Down, 0⟩], .validateState].flatMap
        (fun m => frame m.body) := by
  decide +kernel

/-- For messages which are not well-formed the boundaries matter: a message which is too short
for its content is accepted (with default values) when nothing follows it, but rejected when
the following message was already received. -/
theorem C30_counterexample :
    receiveAll readFromClient [] [frame [12, 1, 0, 0, 0], frame [3, 0, 0, 0]] =
      ([.injectInput [⟨0, .Up, 0⟩], .validateState], none) ∧
    receiveAll readFromClient [] [frame [12, 1, 0, 0, 0] ++ frame [3, 0, 0, 0]] =
      ([.injectInput [⟨4, .Up, 0⟩]], none) := by decide +kernel

/-! ## C31 -/

/-- **C31** Whatever bytes are received, by the server or by the client, none outside of the received
ones are accessed. -/
theorem C31_within_buffer (buf : Bytes) :
    (readLoop readFromClient { buf := buf }).2.2.ok = true ∧
    (readLoop readFromServer { buf := buf }).2.2.ok = true :=
  ⟨readLoop_safe Rd.Safe.fromClient _ rfl (Nat.zero_le _),
   readLoop_safe Rd.Safe.fromServer _ rfl (Nat.zero_le _)⟩

/-- **C31** When the content of a message does not end where its size says, the
connection is closed, and none of the following messages is handled. -/
theorem C31_wrong_size_rejected {r : Rd α} {body after : Bytes} (hb : body.length < 2 ^ 32)
    (h : (r { buf := frame body ++ after, pos := 4 }).2.pos ≠ 4 + body.length) :
    (receive r [] (frame body ++ after)).2 = none ∧
    (receive r [] (frame body ++ after)).1.length = 1 := by
  have h1 := Reads.nat (n := 4) hb [] (body ++ after)
  have hw : frame body ++ after = leBytes 4 body.length ++ (body ++ after) := by
    simp [frame, wrU32]
  have hlen : (frame body ++ after).length = 4 + body.length + after.length := by
    simp [frame_length]
  simp only [List.nil_append, List.length_nil, Nat.zero_add, ← hw, leBytes_length] at h1
  simp only [receive, List.nil_append]
  generalize frame body ++ after = buf at *
  rw [readLoop, h1]
  simp only
  rw [dif_pos (by simp only [Deser.canRead, decide_eq_true_eq]; omega),
    if_pos (by simp only [Deser.canRead, decide_eq_true_eq]; omega), if_neg (by omega)]
  exact ⟨rfl, rfl⟩

/-- **C31** A message with bytes after its content is rejected. -/
theorem C31_too_long_rejected {m : ToServer} {extra after : Bytes} (h : m.FitsMsg)
    (he : extra ≠ []) (hb : (m.body ++ extra).length < 2 ^ 32) :
    (receive readFromClient [] (frame (m.body ++ extra) ++ after)).2 = none := by
  refine (C31_wrong_size_rejected hb ?_).1
  obtain ⟨r, _, h2⟩ := Reads.fromClient h
  have := h2 (wrU32 (m.body ++ extra).length) (extra ++ after)
  have hw : frame (m.body ++ extra) ++ after =
      wrU32 (m.body ++ extra).length ++ (m.body ++ (extra ++ after)) := by simp [frame]
  rw [← hw, show (wrU32 (m.body ++ extra).length).length = 4 from leBytes_length ..] at this
  rw [this]
  have : extra.length ≠ 0 := fun h => he (List.length_eq_zero_iff.1 h)
  simp only [List.length_append]
  omega

example : (receive readFromClient [] (frame [3, 7] ++ frame [3])) = ([.validateState], none) ∧
    (receive readFromClient [] (frame [2, 1, 0, 0] ++ [0])).2 = none := by
  decide +kernel

theorem rdTimes_end {r : Rd α} {a : α} {d : Deser} (h : r d = (a, d)) (n : Nat) :
    rdTimes r n d = (List.replicate n a, d) := by
  induction n with
  | zero => rfl
  | succ n ih =>
    show ((r d).1 :: (rdTimes r n (r d).2).1, (rdTimes r n (r d).2).2) = _
    rw [h, ih]; rfl

/-- The size of what is read is not limited by the size of the message: nine bytes are accepted as
the request to inject any number (below 2^32) of events. -/
theorem C31_short_counterexample {n : Nat} (h : n < 2 ^ 32) :
    receive readFromClient [] (frame (wrType .injectInput ++ wrU32 n)) =
      ([.injectInput (List.replicate n ⟨0, .Up, 0⟩)], some []) := by
  have hb : (frame (wrType .injectInput ++ wrU32 n)).length = 9 := by
    simp [frame_length, wrType, wrU32, leBytes_length]
  have h1 := Reads.nat (n := 4) (v := 5) (by decide) [] (wrType .injectInput ++ wrU32 n)
  have h2 := Reads.type .injectInput (leBytes 4 5) (wrU32 n)
  have h3 := Reads.nat (n := 4) h (leBytes 4 5 ++ wrType .injectInput) []
  have hw : frame (wrType .injectInput ++ wrU32 n) =
      leBytes 4 5 ++ (wrType .injectInput ++ wrU32 n) := by
    simp [frame, wrType, wrU32, leBytes_length]
  rw [List.append_nil, List.append_assoc, show leBytes 4 n = wrU32 n from rfl, ← hw,
    show (wrU32 n).length = 4 from leBytes_length ..,
    show (leBytes 4 5 ++ wrType .injectInput).length = 5 from rfl] at h3
  rw [← hw] at h2
  rw [List.nil_append, ← hw] at h1
  simp only [receive, List.nil_append]
  generalize frame (wrType .injectInput ++ wrU32 n) = buf at *
  have h4 : rdEvent { buf := buf, pos := 9 } = (⟨0, .Up, 0⟩, { buf := buf, pos := 9 }) := by
    have : Deser.canRead { buf := buf, pos := 9 } 4 = false := by
      simp only [Deser.canRead, hb]; decide
    have hr : rdNat 4 { buf := buf, pos := 9 } = (0, { buf := buf, pos := 9 }) := by
      have hi : rdInto (List.replicate 4 0) { buf := buf, pos := 9 } =
          (List.replicate 4 0, { buf := buf, pos := 9 }) := by
        unfold rdInto
        rw [if_neg]
        rw [show (List.replicate 4 (0 : UInt8)).length = 4 from rfl, this]
        simp
      simp only [rdNat, hi]; rfl
    simp only [rdEvent, hr]; rfl
  have h5 : readFromClient { buf := buf, pos := 4 } =
      (.injectInput (List.replicate n ⟨0, .Up, 0⟩), { buf := buf, pos := 9 }) := by
    show (match MessageType.ofCode (rdNat 1 { buf := buf, pos := 4 }).1 with
      | _ => _ : Rd FromClient) (rdNat 1 { buf := buf, pos := 4 }).2 = _
    have h2' : rdNat 1 { buf := buf, pos := 4 } = (12, { buf := buf, pos := 5 }) := h2
    rw [h2']
    show (FromClient.injectInput (rdSeq { buf := buf, pos := 5 }).1,
      (rdSeq { buf := buf, pos := 5 }).2) = _
    have : rdSeq { buf := buf, pos := 5 } =
        (List.replicate n ⟨0, .Up, 0⟩, { buf := buf, pos := 9 }) := by
      show rdTimes rdEvent (rdNat 4 { buf := buf, pos := 5 }).1
        (rdNat 4 { buf := buf, pos := 5 }).2 = _
      rw [h3]
      exact rdTimes_end h4 n
    rw [this]
  have hc4 : Deser.canRead { buf := buf, pos := 0 } 4 = true := by
    simp only [Deser.canRead, hb]; decide
  have hc5 : Deser.canRead { buf := buf, pos := 4 } 5 = true := by
    simp only [Deser.canRead, hb]; decide
  have hc9 : Deser.canRead { buf := buf, pos := 9 } 4 = false := by
    simp only [Deser.canRead, hb]; decide
  have hl : readLoop readFromClient { buf := buf, pos := 9 } =
      ([], true, { buf := buf, pos := 9 }) := by
    rw [readLoop, dif_neg (by rw [hc9]; simp)]
  have h1' : rdNat 4 { buf := buf, pos := 0 } = (5, { buf := buf, pos := 4 }) := h1
  rw [readLoop, dif_pos hc4, h1', if_pos hc5, h5]
  simp only [Nat.zero_add, Nat.reduceAdd, if_true, hl]
  rw [List.drop_of_length_le (by omega)]

end KM
