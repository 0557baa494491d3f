import Verif.Lemmas.Serial
/-!
# Splitting a stream into messages
-/
namespace KM

/-- The bytes of a sequence of messages, each given by its body and what it is read as -/
def wire (ms : List (Bytes × α)) : Bytes := ms.flatMap (fun m => frame m.1)

/-- A message can be framed, and is read as expected -/
def Sound (r : Rd α) (m : Bytes × α) : Prop := m.1.length < 2 ^ 32 ∧ Reads r m.1 m.2

theorem frame_length (b : Bytes) : (frame b).length = 4 + b.length := by
  simp [frame, wrU32, leBytes_length]

theorem Incomplete.prefix {x y : Bytes} (h : Incomplete (x ++ y)) : Incomplete x := by
  by_cases hx : x.length < 4
  · exact Or.inl hx
  · rcases h with h | h
    · simp only [List.length_append] at h; omega
    · right
      rw [List.take_append_of_le_length (by omega)] at h
      simp only [List.length_append] at h
      omega

/-- A proper prefix of a message is incomplete -/
theorem incomplete_of_frame {x y b t : Bytes} (hb : b.length < 2 ^ 32)
    (h : x ++ y = frame b ++ t) (hl : x.length < (frame b).length) : Incomplete x := by
  by_cases hx : x.length < 4
  · exact Or.inl hx
  · right
    have h4 : x.take 4 = leBytes 4 b.length := by
      have := congrArg (List.take 4) h
      rw [List.take_append_of_le_length (by omega)] at this
      rw [this]
      simp only [frame, wrU32, List.append_assoc]
      rw [List.take_append_of_le_length (by rw [leBytes_length]; omega)]
      exact List.take_of_length_le (by rw [leBytes_length]; omega)
    rw [h4, ofLe_leBytes 4 _ hb]
    rw [frame_length] at hl
    exact hl

/-- A prefix of a stream consists of complete messages and an incomplete one -/
theorem wire_split {r : Rd α} {ms : List (Bytes × α)} {p x y : Bytes} (hms : ∀ m ∈ ms, Sound r m)
    (hp : Incomplete p) (h : x ++ y = wire ms ++ p) :
    ∃ done todo rest, ms = done ++ todo ∧ x = wire done ++ rest ∧
      rest ++ y = wire todo ++ p ∧ Incomplete rest := by
  induction ms generalizing x with
  | nil =>
    refine ⟨[], [], x, rfl, rfl, h, ?_⟩
    have h : x ++ y = p := h
    exact Incomplete.prefix (h ▸ hp)
  | cons m ms ih =>
    have hw : wire (m :: ms) ++ p = frame m.1 ++ (wire ms ++ p) := by
      simp [wire]
    by_cases hl : x.length < (frame m.1).length
    · refine ⟨[], m :: ms, x, rfl, rfl, h, ?_⟩
      exact incomplete_of_frame (hms m (List.mem_cons_self ..)).1 (h.trans hw) hl
    · have hpre : frame m.1 <+: x := by
        refine List.prefix_of_prefix_length_le (l₃ := x ++ y) ?_ (List.prefix_append ..)
          (Nat.le_of_not_lt hl)
        exact ⟨_, (h.trans hw).symm⟩
      obtain ⟨x', rfl⟩ := hpre
      have h' : x' ++ y = wire ms ++ p := by
        rw [hw, List.append_assoc] at h
        exact List.append_cancel_left h
      obtain ⟨done, todo, rest, h1, h2, h3, h4⟩ :=
        ih (fun n hn => hms n (List.mem_cons_of_mem _ hn)) h'
      refine ⟨m :: done, todo, rest, ?_, ?_, h3, h4⟩
      · rw [h1]; rfl
      · rw [h2]; simp [wire]

theorem readLoop_incomplete (r : Rd α) {before p : Bytes} (hp : Incomplete p) :
    readLoop r { buf := before ++ p, pos := before.length } =
      ([], true, { buf := before ++ p, pos := before.length }) := by
  rw [readLoop]
  by_cases h4 : p.length < 4
  · rw [dif_neg]
    simp only [Deser.canRead, List.length_append, decide_eq_true_eq]
    omega
  · have hp : p.length < 4 + ofLe (p.take 4) := by
      rcases hp with hp | hp
      · exact absurd hp h4
      · exact hp
    have hs : p = p.take 4 ++ p.drop 4 := (List.take_append_drop 4 p).symm
    have hr := Reads.nat' (n := 4) (bs := p.take 4) (by rw [List.length_take]; omega)
      before (p.drop 4)
    rw [← hs] at hr
    rw [hr]
    split
    · rw [if_neg]
      simp only [Deser.canRead, List.length_append, List.length_take, decide_eq_true_eq]
      omega
    · rfl

theorem readLoop_wire {r : Rd α} {ms : List (Bytes × α)} (hms : ∀ m ∈ ms, Sound r m)
    {before p : Bytes} (hp : Incomplete p) :
    readLoop r { buf := before ++ (wire ms ++ p), pos := before.length } =
      (ms.map (·.2), true, { buf := before ++ (wire ms ++ p),
                             pos := before.length + (wire ms).length }) := by
  induction ms generalizing before with
  | nil =>
    have := readLoop_incomplete r (before := before) hp
    simpa [wire] using this
  | cons m ms ih =>
    obtain ⟨hm1, hm2⟩ := hms m (List.mem_cons_self ..)
    have hw : before ++ (wire (m :: ms) ++ p) =
        before ++ (wrU32 m.1.length ++ (m.1 ++ (wire ms ++ p))) := by
      simp [wire, frame]
    have hw2 : before ++ (wire (m :: ms) ++ p) =
        (before ++ wrU32 m.1.length) ++ (m.1 ++ (wire ms ++ p)) := by
      rw [hw, List.append_assoc]
    have hw3 : before ++ (wire (m :: ms) ++ p) =
        (before ++ frame m.1) ++ (wire ms ++ p) := by
      rw [hw]; simp [frame]
    have h1 := Reads.nat (n := 4) hm1 before (m.1 ++ (wire ms ++ p))
    have h2 := hm2 (before ++ wrU32 m.1.length) (wire ms ++ p)
    have h3 := ih (fun n hn => hms n (List.mem_cons_of_mem _ hn)) (before := before ++ frame m.1)
    rw [show leBytes 4 m.1.length = wrU32 m.1.length from rfl, ← hw] at h1
    rw [← hw2] at h2
    rw [← hw3] at h3
    have hu : (wrU32 m.1.length).length = 4 := leBytes_length ..
    have hlen : (before ++ (wire (m :: ms) ++ p)).length =
        before.length + 4 + m.1.length + (wire ms ++ p).length := by
      rw [hw]; simp only [List.length_append, hu]; omega
    have hwl : (wire (m :: ms)).length = 4 + m.1.length + (wire ms).length := by
      simp only [wire, List.flatMap_cons, List.length_append, frame_length]
    generalize before ++ (wire (m :: ms) ++ p) = buf at *
    rw [List.length_append, hu] at h2
    rw [List.length_append, frame_length, ← Nat.add_assoc] at h3
    rw [readLoop, h1, hu]
    simp only
    rw [dif_pos (by simp only [Deser.canRead, decide_eq_true_eq]; omega),
      if_pos (by simp only [Deser.canRead, decide_eq_true_eq]; omega), h2, if_pos rfl, h3]
    simp only [List.map_cons, hwl]
    refine congrArg _ (congrArg _ ?_)
    simp only [Deser.mk.injEq, and_true, true_and]
    omega

theorem receive_wire {r : Rd α} {ms : List (Bytes × α)} (hms : ∀ m ∈ ms, Sound r m)
    {rest chunk p : Bytes} (h : rest ++ chunk = wire ms ++ p) (hp : Incomplete p) :
    receive r rest chunk = (ms.map (·.2), some p) := by
  have := readLoop_wire hms (before := []) hp
  simp only [List.nil_append, List.length_nil, Nat.zero_add] at this
  simp only [receive, h, this, List.drop_left]

theorem receiveAll_wire {r : Rd α} {ms : List (Bytes × α)} (hms : ∀ m ∈ ms, Sound r m)
    {rest p future : Bytes} (hr : Incomplete rest) (hp : Incomplete p) {chunks : List Bytes}
    (h : rest ++ chunks.flatten ++ future = wire ms ++ p) :
    ∃ done todo rest', ms = done ++ todo ∧
      receiveAll r rest chunks = (done.map (·.2), some rest') ∧
      rest' ++ future = wire todo ++ p ∧ Incomplete rest' := by
  induction chunks generalizing rest ms with
  | nil =>
    refine ⟨[], ms, rest, rfl, rfl, ?_, hr⟩
    simpa using h
  | cons c cs ih =>
    have h' : (rest ++ c) ++ (cs.flatten ++ future) = wire ms ++ p := by
      simpa using h
    obtain ⟨done, todo, rest1, h1, h2, h3, h4⟩ := wire_split hms hp h'
    have hd : ∀ m ∈ done, Sound r m := fun m hm => hms m (by simp [h1, hm])
    have ht : ∀ m ∈ todo, Sound r m := fun m hm => hms m (by simp [h1, hm])
    obtain ⟨done2, todo2, rest2, g1, g2, g3, g4⟩ := ih ht h4 (by simpa using h3)
    refine ⟨done ++ done2, todo2, rest2, by simp [h1, g1], ?_, g3, g4⟩
    simp only [receiveAll, receive_wire hd h2 h4, g2, List.map_append]

theorem Incomplete.nil : Incomplete [] := Or.inl (by decide)

/-- No message is complete -/
theorem wire_incomplete {ms : List (Bytes × α)} {p : Bytes}
    (hms : ∀ m ∈ ms, m.1.length < 2 ^ 32) (h : Incomplete (wire ms ++ p)) : ms = [] := by
  cases ms with
  | nil => rfl
  | cons m ms =>
    exfalso
    have hm := hms m (List.mem_cons_self ..)
    have hw : wire (m :: ms) ++ p = wrU32 m.1.length ++ (m.1 ++ (wire ms ++ p)) := by
      simp [wire, frame]
    rw [hw] at h
    have hu : (wrU32 m.1.length).length = 4 := leBytes_length ..
    rcases h with h | h
    · simp only [List.length_append, hu] at h; omega
    · rw [List.take_append_of_le_length (by omega), List.take_of_length_le (by omega), wrU32,
        ofLe_leBytes 4 _ hm] at h
      simp only [List.length_append, leBytes_length] at h; omega

/-! ## Accesses stay within the buffer -/

/-- Reading at a position within the buffer does not access anything outside, and stays within
the buffer -/
def Rd.Safe (r : Rd α) : Prop :=
  ∀ d : Deser, d.ok = true → d.pos ≤ d.buf.length →
    (r d).2.ok = true ∧ (r d).2.buf = d.buf ∧ (r d).2.pos ≤ d.buf.length

theorem Rd.Safe.ret (a : α) : Rd.Safe (pure a : Rd α) := fun _ h1 h2 => ⟨h1, rfl, h2⟩

theorem Rd.Safe.bind {r : Rd α} {f : α → Rd β} (h : r.Safe) (g : ∀ a, (f a).Safe) :
    Rd.Safe (r >>= f) := by
  intro d h1 h2
  show (f (r d).1 (r d).2).2.ok = true ∧ (f (r d).1 (r d).2).2.buf = d.buf ∧ _
  obtain ⟨a1, a2, a3⟩ := h d h1 h2
  obtain ⟨b1, b2, b3⟩ := g (r d).1 (r d).2 a1 (by rw [a2]; exact a3)
  exact ⟨b1, b2.trans a2, by rw [a2] at b3; exact b3⟩

theorem Rd.Safe.into (init : Bytes) : (rdInto init).Safe := by
  intro d h1 h2
  unfold rdInto
  split
  · rename_i h
    have hc : d.pos + init.length ≤ d.buf.length :=
      of_decide_eq_true (Bool.and_eq_true_iff.1 h).2
    refine ⟨?_, rfl, hc⟩
    simp only [Deser.copy, h1, decide_eq_true hc, Bool.and_self]
  · exact ⟨h1, rfl, h2⟩

theorem Rd.Safe.nat (n : Nat) : (rdNat n).Safe := fun d => Rd.Safe.into (List.replicate n 0) d
theorem Rd.Safe.i32 : rdI32.Safe := fun d => Rd.Safe.nat 4 d
theorem Rd.Safe.bool : rdBool.Safe := fun d => Rd.Safe.nat 1 d
theorem Rd.Safe.key : rdKey.Safe := Rd.Safe.nat 2
theorem Rd.Safe.state : rdState.Safe := fun d => Rd.Safe.nat 2 d
theorem Rd.Safe.event : rdEvent.Safe := fun d => Rd.Safe.nat 4 d

theorem Rd.Safe.str : rdStr.Safe := by
  intro d h1 h2
  obtain ⟨a1, a2, a3⟩ := Rd.Safe.nat 4 d h1 h2
  obtain ⟨b1, b2, b3⟩ := Rd.Safe.into (List.replicate (rdNat 4 d).1 32) (rdNat 4 d).2 a1
    (by rw [a2]; exact a3)
  exact ⟨b1, b2.trans a2, by rw [a2] at b3; exact b3⟩

theorem Rd.Safe.times {r : Rd α} (h : r.Safe) (n : Nat) : (rdTimes r n).Safe := by
  induction n with
  | zero => exact Rd.Safe.ret []
  | succ n ih =>
    exact Rd.Safe.bind h (fun a => Rd.Safe.bind ih (fun l => Rd.Safe.ret _))

theorem Rd.Safe.list {r : Rd α} (h : r.Safe) : (rdList r).Safe :=
  Rd.Safe.bind (Rd.Safe.nat 4) (fun n => Rd.Safe.times h n)

theorem Rd.Safe.seq : rdSeq.Safe := Rd.Safe.list Rd.Safe.event

theorem Rd.Safe.filter : rdFilter.Safe :=
  Rd.Safe.bind Rd.Safe.str (fun _ => Rd.Safe.bind Rd.Safe.bool (fun _ => Rd.Safe.ret _))

theorem Rd.Safe.input : rdInput.Safe :=
  Rd.Safe.bind Rd.Safe.seq (fun _ => Rd.Safe.bind Rd.Safe.i32 (fun _ => Rd.Safe.ret _))

theorem Rd.Safe.command : rdCommand.Safe :=
  Rd.Safe.bind Rd.Safe.seq (fun _ => Rd.Safe.bind Rd.Safe.i32 (fun _ => Rd.Safe.ret _))

theorem Rd.Safe.context : rdContext.Safe :=
  Rd.Safe.bind Rd.Safe.bool fun _ => Rd.Safe.bind (Rd.Safe.list Rd.Safe.input) fun _ =>
  Rd.Safe.bind (Rd.Safe.list Rd.Safe.seq) fun _ =>
  Rd.Safe.bind (Rd.Safe.list Rd.Safe.command) fun _ => Rd.Safe.bind Rd.Safe.filter fun _ =>
  Rd.Safe.bind Rd.Safe.filter fun _ => Rd.Safe.bind Rd.Safe.seq fun _ =>
  Rd.Safe.bind Rd.Safe.bool fun _ => Rd.Safe.bind Rd.Safe.bool fun _ => Rd.Safe.ret _

theorem Rd.Safe.fromClient : readFromClient.Safe := by
  refine Rd.Safe.bind (Rd.Safe.nat 1) fun t => ?_
  split
  · exact Rd.Safe.bind (Rd.Safe.list (Rd.Safe.bind Rd.Safe.filter fun _ =>
      Rd.Safe.bind Rd.Safe.bool fun _ => Rd.Safe.ret _)) fun _ =>
      Rd.Safe.bind (Rd.Safe.bind (Rd.Safe.list Rd.Safe.context) fun _ => Rd.Safe.ret _) fun _ =>
      Rd.Safe.bind (Rd.Safe.list Rd.Safe.str) fun _ => Rd.Safe.ret _
  · exact Rd.Safe.bind (Rd.Safe.list Rd.Safe.i32) fun _ => Rd.Safe.ret _
  · exact Rd.Safe.bind Rd.Safe.key fun _ => Rd.Safe.bind Rd.Safe.state fun _ => Rd.Safe.ret _
  · exact Rd.Safe.ret _
  · exact Rd.Safe.ret _
  · exact Rd.Safe.bind Rd.Safe.seq fun _ => Rd.Safe.ret _
  · exact Rd.Safe.bind Rd.Safe.seq fun _ => Rd.Safe.ret _
  · exact Rd.Safe.ret _

theorem Rd.Safe.fromServer : readFromServer.Safe := by
  refine Rd.Safe.bind (Rd.Safe.nat 1) fun t => ?_
  split
  · exact Rd.Safe.bind Rd.Safe.i32 fun _ => Rd.Safe.ret _
  · exact Rd.Safe.bind Rd.Safe.key fun _ => Rd.Safe.bind Rd.Safe.state fun _ => Rd.Safe.ret _
  · exact Rd.Safe.bind Rd.Safe.key fun _ => Rd.Safe.bind Rd.Safe.str fun _ =>
      Rd.Safe.bind Rd.Safe.str fun _ => Rd.Safe.ret _
  · exact Rd.Safe.ret _

theorem readLoop_safe {r : Rd α} (h : r.Safe) (d : Deser) (h1 : d.ok = true)
    (h2 : d.pos ≤ d.buf.length) : (readLoop r d).2.2.ok = true := by
  fun_induction readLoop r d with
  | case1 d hc hs e m he rest ih =>
    refine ih ?_ ?_
    · obtain ⟨a1, a2, a3⟩ := Rd.Safe.nat 4 d h1 h2
      exact (h (rdNat 4 d).2 a1 (by rw [a2]; exact a3)).1
    · obtain ⟨a1, a2, a3⟩ := Rd.Safe.nat 4 d h1 h2
      obtain ⟨b1, b2, b3⟩ := h (rdNat 4 d).2 a1 (by rw [a2]; exact a3)
      show e ≤ d.buf.length
      rw [a2] at b3
      exact he ▸ b3
  | case2 d hc hs e m he =>
    obtain ⟨a1, a2, a3⟩ := Rd.Safe.nat 4 d h1 h2
    exact (h (rdNat 4 d).2 a1 (by rw [a2]; exact a3)).1
  | case3 d hc hs => exact h1
  | case4 d hc => exact h1

end KM
