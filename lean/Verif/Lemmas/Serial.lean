import Verif.Spec.Serial
/-!
# Reading back what was written
-/
namespace KM

theorem leBytes_length (n v : Nat) : (leBytes n v).length = n := by
  induction n generalizing v with
  | zero => rfl
  | succ n ih => simp [leBytes, ih]

theorem ofLe_leBytes (n v : Nat) (h : v < 256 ^ n) : ofLe (leBytes n v) = v := by
  induction n generalizing v with
  | zero => simp only [Nat.pow_zero, Nat.lt_one_iff] at h; simp [leBytes, ofLe, h]
  | succ n ih =>
    have hd : v / 256 < 256 ^ n := by
      apply Nat.div_lt_of_lt_mul
      rw [Nat.mul_comm, ← Nat.pow_succ]; exact h
    simp only [leBytes, ofLe, ih _ hd]
    have : (UInt8.ofNat (v % 256)).toNat = v % 256 := by
      rw [UInt8.toNat_ofNat']; omega
    rw [this]; omega

theorem ofLe_append (a b : Bytes) : ofLe (a ++ b) = ofLe a + 256 ^ a.length * ofLe b := by
  induction a with
  | nil => simp [ofLe]
  | cons x xs ih =>
    simp only [List.cons_append, ofLe, ih, List.length_cons, Nat.pow_succ]
    rw [Nat.mul_add, Nat.mul_comm (256 ^ xs.length) 256, ← Nat.mul_assoc]; omega

theorem Reads.ret (a : α) : Reads (pure a : Rd α) [] a := by
  intro b t; rfl

theorem Reads.bind {r : Rd α} {f : α → Rd β} {bs cs : Bytes} {a : α} {b : β}
    (h : Reads r bs a) (g : Reads (f a) cs b) : Reads (r >>= f) (bs ++ cs) b := by
  intro before after
  have h1 := h before (cs ++ after)
  have h2 := g (before ++ bs) after
  simp only [List.append_assoc] at h1 h2 ⊢
  show f (r _).1 (r _).2 = _
  rw [h1]
  simp only [List.length_append, Nat.add_assoc] at h2 ⊢
  exact h2

/-- The last step of a reader -/
theorem Reads.map {r : Rd α} {bs : Bytes} {a : α} (g : α → β) (h : Reads r bs a) :
    Reads (do let a ← r; pure (g a)) bs (g a) := by
  have := Reads.bind (f := fun a => (pure (g a) : Rd β)) h (Reads.ret (g a))
  rwa [List.append_nil] at this

theorem Reads.into {init bs : Bytes} (h : bs.length = init.length) : Reads (rdInto init) bs bs := by
  intro before after
  by_cases h0 : init.length = 0
  · have hb : bs = [] := List.length_eq_zero_iff.1 (h.trans h0)
    have hi : init = [] := List.length_eq_zero_iff.1 h0
    subst hb; subst hi
    simp [rdInto]
  · have hle : before.length + init.length ≤ (before ++ (bs ++ after)).length := by
      simp only [List.length_append]; omega
    have hcan : Deser.canRead { buf := before ++ (bs ++ after), pos := before.length }
        init.length = true := decide_eq_true hle
    have h0' : (init.length != 0) = true := bne_iff_ne.2 h0
    simp only [rdInto, hcan, h0', Bool.and_true, if_true, Deser.copy, decide_eq_true hle,
      List.drop_left]
    rw [← h, List.take_left]

theorem Reads.nat {n v : Nat} (h : v < 256 ^ n) : Reads (rdNat n) (leBytes n v) v := by
  intro before after
  have := Reads.into (init := List.replicate n 0) (bs := leBytes n v)
    (by simp [leBytes_length]) before after
  simp only [rdNat, this, ofLe_leBytes n v h]

theorem Reads.nat' {n : Nat} {bs : Bytes} (h : bs.length = n) : Reads (rdNat n) bs (ofLe bs) := by
  intro before after
  have := Reads.into (init := List.replicate n 0) (bs := bs) (by simp [h]) before after
  simp only [rdNat, this]

theorem Reads.i32 {v : Int} (h : FitsInt v) : Reads rdI32 (wrI32 v) v := by
  intro before after
  obtain ⟨h1, h2⟩ := h
  have hlt : (v % 2 ^ 32).toNat < 256 ^ 4 := by
    have := Int.emod_lt_of_pos v (show (0 : Int) < 2 ^ 32 by decide)
    omega
  have := Reads.nat hlt before after
  simp only [rdI32, wrI32, this]
  refine Prod.ext ?_ rfl
  simp only
  split <;> omega

theorem Reads.bool (b : Bool) : Reads rdBool (wrBool b) b := by
  intro before after
  have := Reads.nat' (n := 1) (bs := wrBool b) rfl before after
  simp only [rdBool, this]
  cases b <;> rfl

theorem Reads.key {k : Key} (h : k < 2 ^ 16) : Reads rdKey (wrKey k) k :=
  Reads.nat (n := 2) h

theorem KeyState.ofCode_code (st : KeyState) : KeyState.ofCode st.code = st := by
  cases st <;> rfl

theorem KeyState.code_lt (st : KeyState) : st.code < 16 := by cases st <;> decide

theorem Reads.state (st : KeyState) : Reads rdState (wrState st) st := by
  intro before after
  have := Reads.nat (n := 2) (v := st.code)
    (Nat.lt_trans st.code_lt (by decide)) before after
  simp only [rdState, wrState, this, KeyState.ofCode_code]

theorem unpack (k c v : Nat) (hk : k < 2 ^ 16) (hc : c < 16) :
    (k + 256 ^ 2 * (c + 16 * v)) % 2 ^ 16 = k ∧
    (k + 256 ^ 2 * (c + 16 * v)) / 2 ^ 16 % 16 = c ∧
    (k + 256 ^ 2 * (c + 16 * v)) / 2 ^ 20 = v := by omega

theorem eventOf_written {e : KeyEvent} (h : FitsEvent e) : eventOf (ofLe (wrEvent e)) = e := by
  obtain ⟨key, state, value⟩ := e
  obtain ⟨h1, h2⟩ := h
  have h1 : key < 2 ^ 16 := h1
  have h2 : value < 2 ^ 12 := h2
  have hc := state.code_lt
  simp only [wrEvent, ofLe_append, leBytes_length]
  rw [ofLe_leBytes 2 key h1, ofLe_leBytes 2 _ (by omega)]
  obtain ⟨e1, e2, e3⟩ := unpack key state.code value h1 hc
  simp only [eventOf, e1, e2, e3, KeyState.ofCode_code]

theorem Reads.event {e : KeyEvent} (h : FitsEvent e) : Reads rdEvent (wrEvent e) e := by
  intro before after
  have := Reads.nat' (n := 4) (bs := wrEvent e)
    (by simp [wrEvent, leBytes_length]) before after
  simp only [rdEvent, this, eventOf_written h]

theorem char_of_byte {c : Char} (h : c.toNat < 256) :
    Char.ofNat (UInt8.ofNat c.toNat).toNat = c := by
  rw [UInt8.toNat_ofNat', Nat.mod_eq_of_lt h]
  exact Char.ofNat_toNat c

theorem Reads.str {s : Str} (h : FitsStr s) : Reads rdStr (wrStr s) s := by
  intro before after
  have h1 := Reads.nat (n := 4) (v := s.length) (by have := h.1; omega) before
    (s.map (fun c => UInt8.ofNat c.toNat) ++ after)
  have h2 := Reads.into (init := List.replicate s.length 32)
    (bs := s.map (fun c => UInt8.ofNat c.toNat)) (by simp) (before ++ leBytes 4 s.length) after
  simp only [List.append_assoc, List.length_append] at h2
  simp only [rdStr, wrStr, wrU32, List.append_assoc, h1, h2, List.length_append, Nat.add_assoc]
  refine Prod.ext ?_ rfl
  simp only [List.map_map]
  refine (List.map_congr_left (fun c hc => ?_)).trans (List.map_id s)
  exact char_of_byte (h.2 c hc)

theorem Reads.times {r : Rd α} {w : α → Bytes} {l : List α} (h : ∀ a ∈ l, Reads r (w a) a) :
    Reads (rdTimes r l.length) (l.flatMap w) l := by
  induction l with
  | nil => exact Reads.ret []
  | cons a l ih =>
    simp only [List.length_cons, rdTimes, List.flatMap_cons]
    refine Reads.bind (h a (List.mem_cons_self ..)) ?_
    exact Reads.map (fun l => a :: l) (ih (fun b hb => h b (List.mem_cons_of_mem _ hb)))

/-- The same when the reader produces something else than what was written -/
theorem Reads.times_map {r : Rd β} {w : α → Bytes} {g : α → β} {l : List α}
    (h : ∀ a ∈ l, Reads r (w a) (g a)) :
    Reads (rdTimes r l.length) (l.flatMap w) (l.map g) := by
  induction l with
  | nil => exact Reads.ret []
  | cons a l ih =>
    simp only [List.length_cons, rdTimes, List.flatMap_cons, List.map_cons]
    refine Reads.bind (h a (List.mem_cons_self ..)) ?_
    exact Reads.map (fun l => g a :: l) (ih (fun b hb => h b (List.mem_cons_of_mem _ hb)))

theorem Reads.list {r : Rd α} {w : α → Bytes} {p : α → Prop} {l : List α}
    (h : ∀ a, p a → Reads r (w a) a) (hl : Fits p l) : Reads (rdList r) (wrList w l) l :=
  Reads.bind (Reads.nat (n := 4) hl.1) (Reads.times (fun a ha => h a (hl.2 a ha)))

theorem Reads.list_map {r : Rd β} {w : α → Bytes} {g : α → β} {p : α → Prop} {l : List α}
    (h : ∀ a, p a → Reads r (w a) (g a)) (hl : Fits p l) :
    Reads (rdList r) (wrList w l) (l.map g) :=
  Reads.bind (Reads.nat (n := 4) hl.1) (Reads.times_map (fun a ha => h a (hl.2 a ha)))

theorem Reads.seq {l : KeySequence} (h : Fits FitsEvent l) : Reads rdSeq (wrSeq l) l :=
  Reads.list (fun _ => Reads.event) h

theorem Reads.filter {f : Filter} (h : FitsFilter f) : Reads rdFilter (wrFilter f) f := by
  have : f = ⟨f.string, isRegexStr f.string, f.invert⟩ := by rw [← h.2]
  rw [this]
  exact Reads.bind (Reads.str h.1) (Reads.map _ (Reads.bool f.invert))

theorem Reads.input {i : Input} (h : Fits FitsEvent i.input ∧ FitsInt i.outputIndex) :
    Reads rdInput (wrInput i) i :=
  Reads.bind (Reads.seq h.1) (Reads.map _ (Reads.i32 h.2))

theorem Reads.command {i : CommandOutput} (h : Fits FitsEvent i.output ∧ FitsInt i.index) :
    Reads rdCommand (wrCommand i) i :=
  Reads.bind (Reads.seq h.1) (Reads.map _ (Reads.i32 h.2))

theorem Reads.context {c : CContext} (h : FitsContext c) :
    Reads rdContext (wrContext c) (c.beginStage, contextOf c) :=
  Reads.bind (Reads.bool _) <| Reads.bind (Reads.list (fun _ => Reads.input) h.inputs) <|
  Reads.bind (Reads.list (fun _ => Reads.seq) h.outputs) <|
  Reads.bind (Reads.list (fun _ => Reads.command) h.commands) <|
  Reads.bind (Reads.filter h.device) <| Reads.bind (Reads.filter h.deviceId) <|
  Reads.bind (Reads.seq h.modifier) <| Reads.bind (Reads.bool _) <|
  Reads.map _ (Reads.bool _)

theorem Reads.grabFilter {f : GrabDeviceFilter} (h : FitsFilter f.toFilter) :
    Reads rdGrabFilter (wrGrabFilter f) f :=
  Reads.bind (Reads.filter h) (Reads.map _ (Reads.bool _))

/-! ## Stages -/

/-- The contexts of the started stage are kept as its first ones -/
theorem splitStages_spec (cur : List Context) (hc : cur ≠ []) (l : List (Bool × Context)) :
    (∀ st ∈ splitStages cur l, st ≠ []) ∧
    (splitStages cur l).flatMap markFirst = markFirst cur ++ l := by
  induction l generalizing cur with
  | nil =>
    have : cur.isEmpty = false := by cases cur <;> simp_all
    simp only [splitStages, this, Bool.false_eq_true, if_false]
    simpa using hc
  | cons p l ih =>
    obtain ⟨b, c⟩ := p
    have he : cur.isEmpty = false := by cases cur <;> simp_all
    simp only [splitStages, he, Bool.not_false, Bool.and_true]
    cases b with
    | true =>
      simp only [if_true, List.flatMap_cons]
      obtain ⟨h1, h2⟩ := ih [c] (by simp)
      refine ⟨?_, ?_⟩
      · intro st hst
        rcases List.mem_cons.1 hst with rfl | hst
        · exact hc
        · exact h1 st hst
      · rw [h2]; rfl
    | false =>
      simp only [Bool.false_eq_true, if_false]
      obtain ⟨h1, h2⟩ := ih (cur ++ [c]) (by simp)
      refine ⟨h1, ?_⟩
      rw [h2]
      cases cur with
      | nil => exact absurd rfl hc
      | cons x xs => simp [markFirst]

theorem splitStages_stagesOf (l : List CContext) :
    StagesOf l (splitStages [] (l.map (fun c => (c.beginStage, contextOf c)))) := by
  cases l with
  | nil => exact ⟨by simp [splitStages], rfl⟩
  | cons c l =>
    have := splitStages_spec [contextOf c] (by simp)
      (l.map (fun c => (c.beginStage, contextOf c)))
    simp only [List.map_cons, splitStages, List.isEmpty_nil, Bool.not_true, Bool.and_false,
      Bool.false_eq_true, if_false, List.nil_append]
    exact ⟨this.1, this.2⟩

theorem Reads.stages {l : List CContext} (h : Fits FitsContext l) :
    Reads rdStages (wrList wrContext l)
      (splitStages [] (l.map (fun c => (c.beginStage, contextOf c)))) :=
  Reads.map _ (Reads.list_map (fun _ => Reads.context) h)

/-! ## Messages -/

theorem Reads.type (t : MessageType) : Reads (rdNat 1) (wrType t) t.code :=
  Reads.nat (by cases t <;> decide)

theorem MessageType.ofCode_code (t : MessageType) : MessageType.ofCode t.code = some t := by
  cases t <;> rfl

theorem Reads.fromClient {m : ToServer} (h : m.FitsMsg) :
    ∃ r, m.Means r ∧ Reads readFromClient m.body r := by
  cases m with
  | config c =>
    refine ⟨_, ⟨_, splitStages_stagesOf c.contexts, rfl⟩, ?_⟩
    refine Reads.bind (Reads.type .configuration) ?_
    exact Reads.bind (Reads.list (fun _ => Reads.grabFilter) h.filters) <|
      Reads.bind (Reads.stages h.contexts) <|
      Reads.map _ (Reads.list (fun _ => Reads.str) h.directives)
  | activeContexts l =>
    exact ⟨_, rfl, Reads.bind (Reads.type .activeContexts)
      (Reads.map _ (Reads.list (fun _ => Reads.i32) h))⟩
  | validateState =>
    exact ⟨_, rfl, Reads.bind (cs := []) (Reads.type .validateState) (Reads.ret _)⟩
  | setVirtualKeyState k st =>
    exact ⟨_, rfl, Reads.bind (Reads.type .setVirtualKeyState)
      (Reads.bind (Reads.key h) (Reads.map _ (Reads.state st)))⟩
  | requestNextKeyInfo =>
    exact ⟨_, rfl, Reads.bind (cs := []) (Reads.type .nextKeyInfo) (Reads.ret _)⟩
  | injectInput l =>
    exact ⟨_, rfl, Reads.bind (Reads.type .injectInput) (Reads.map _ (Reads.seq h))⟩
  | injectOutput l =>
    exact ⟨_, rfl, Reads.bind (Reads.type .injectOutput) (Reads.map _ (Reads.seq h))⟩

theorem Reads.fromServer {m : ToClient} (h : m.FitsMsg) :
    Reads readFromServer m.body (some m) := by
  cases m with
  | executeAction i =>
    exact Reads.bind (Reads.type .executeAction) (Reads.map _ (Reads.i32 h))
  | virtualKeyState k st =>
    exact Reads.bind (Reads.type .virtualKeyState)
      (Reads.bind (Reads.key h) (Reads.map _ (Reads.state st)))
  | nextKeyInfo k desc =>
    exact Reads.bind (Reads.type .nextKeyInfo) (Reads.bind (Reads.key h.1)
      (Reads.bind (Reads.str h.2.1) (Reads.map _ (Reads.str h.2.2))))

end KM
