import Verif.Props.ControlLimits2
/-!
# The sequence of requests of `keymapperctl`

**C77** The requests are made one after the other; `--stdout`, the exit code and `--restart`.
-/
namespace KM

/-- A request with what happens while it waits -/
abbrev CtlEntry := Request × List SysOp × List SysOp

/-- the entry asks the client for something -/
def CtlEntry.sent (x : CtlEntry) : Bool := x.1.type.isSent

/-- **C77** (order): the requests before another one are made first, with the last result. -/
theorem C77_order (h : CtlHost) (abs : Str → Option Str) (l l' : List CtlEntry) (hl : ∀ x ∈ l, x.1.type ≠ .restart) :
    ∀ (s : CtlSys) (result : CtlResult), s.pass h abs result (l ++ l') =
      (s.pass h abs result l).2.2.pass h abs (s.pass h abs result l).1 l' := by
  induction l with
  | nil => intro s result; rfl
  | cons x l ih =>
    intro s result
    obtain ⟨req, ops1, ops2⟩ := x
    have hx : req.type ≠ .restart := hl (req, ops1, ops2) (by simp)
    rw [List.cons_append, CtlSys.pass, CtlSys.pass, if_neg hx, if_neg hx]
    exact ih (fun y hy => hl y (by simp [hy])) _ _

/-- a request which is sent does not depend on the last result -/
theorem makeRequest_sent (h : CtlHost) (abs : Str → Option Str) (s : CtlSys) (req : Request) (ops1 ops2 : List SysOp)
    (hs : req.type.isSent = true) (last last' : CtlResult) :
    s.makeRequest h abs req last ops1 ops2 = s.makeRequest h abs req last' ops1 ops2 := by
  obtain ⟨t, string, timeout⟩ := req
  cases t <;> first | rfl | cases hs

/-- `--wait` and `--stdout` keep the result -/
theorem pass_not_sent (h : CtlHost) (abs : Str → Option Str) (l : List CtlEntry) (hl : ∀ x ∈ l, x.1.type ≠ .restart ∧ x.sent = false) :
    ∀ (s : CtlSys) (result : CtlResult), (s.pass h abs result l).1 = result := by
  induction l with
  | nil => intro s result; rfl
  | cons x l ih =>
    intro s result
    obtain ⟨req, ops1, ops2⟩ := x
    have hx := hl (req, ops1, ops2) (by simp)
    rw [CtlSys.pass, if_neg hx.1]
    simp only []
    rw [ih (fun y hy => hl y (by simp [hy]))]
    obtain ⟨t, string, timeout⟩ := req
    cases t <;> first | rfl | exact absurd rfl hx.1 | exact Bool.noConfusion hx.2

/-- **C77** (exit code): the result is the one of the last request which was sent to the client, independent of the results of the other
ones; waiting and outputting results does not change it. Without `--restart` this ends the program. -/
theorem C77_exit_code (h : CtlHost) (abs : Str → Option Str) (s : CtlSys) (result : CtlResult) (before after : List CtlEntry) (x : CtlEntry)
    (hx : x.sent = true) (hb : ∀ y ∈ before, y.1.type ≠ .restart) (ha : ∀ y ∈ after, y.1.type ≠ .restart ∧ y.sent = false) (last : CtlResult) :
    (s.pass h abs result (before ++ x :: after)).1 = ((s.pass h abs result before).2.2.makeRequest h abs x.1 last x.2.1 x.2.2).1 ∧
    (s.pass h abs result (before ++ x :: after)).2.1 = false := by
  obtain ⟨req, ops1, ops2⟩ := x
  have hr : req.type ≠ .restart := by
    rintro e
    simp only [CtlEntry.sent, e] at hx
    cases hx
  have hno : ∀ (l : List CtlEntry), (∀ y ∈ l, y.1.type ≠ .restart) → ∀ (s : CtlSys) (result : CtlResult), (s.pass h abs result l).2.1 = false := by
    intro l
    induction l with
    | nil => intro _ s result; rfl
    | cons y l ih =>
      intro hl s result
      obtain ⟨q, o1, o2⟩ := y
      rw [CtlSys.pass, if_neg (hl (q, o1, o2) (by simp))]
      exact ih (fun z hz => hl z (by simp [hz])) _ _
  constructor
  · rw [C77_order h abs before _ hb, CtlSys.pass, if_neg hr]
    simp only []
    rw [pass_not_sent h abs after ha, makeRequest_sent h abs _ req ops1 ops2 hx last]
  · refine hno _ ?_ s result
    intro y hy
    rcases List.mem_append.1 hy with hy | hy
    · exact hb y hy
    · rcases List.mem_cons.1 hy with rfl | hy
      · exact hr
      · exact (ha y hy).1

theorem codes_run (h : CtlHost) (ops : List SysOp) : ∀ s : CtlSys, (s.run h ops).codes = s.codes := by
  induction ops with
  | nil => intro s; rfl
  | cons op ops ih =>
    intro s
    have e : (s.step h op).codes = s.codes := by
      cases op with
      | client op => rfl
      | handle fs upd =>
        rw [CtlSys.step]
        split <;> rfl
    show ((s.step h op).run h ops).codes = _
    rw [ih, e]

theorem codes_readState (h : CtlHost) (s : CtlSys) : (s.readState h).2.2.codes = s.codes := by
  unfold CtlSys.readState
  split
  · rfl
  · split <;> rfl

theorem codes_request (h : CtlHost) (s : CtlSys) (m : CtlMsg) (ops : List SysOp) : (s.request h m ops).2.2.codes = s.codes := by
  unfold CtlSys.request
  split
  · rfl
  · rw [codes_readState, codes_run]

theorem codes_makeRequest (h : CtlHost) (abs : Str → Option Str) (s : CtlSys) (req : Request) (last : CtlResult) (ops1 ops2 : List SysOp) :
    (s.makeRequest h abs req last ops1 ops2).2.codes = if req.type = .stdoutResult then s.codes ++ [last] else s.codes := by
  obtain ⟨t, string, timeout⟩ := req
  have hw : ∀ u, (s.waitKey h string u ops1 ops2).2.codes = s.codes := by
    intro u
    unfold CtlSys.waitKey
    simp only []
    split
    · split
      · exact codes_request h s _ ops1
      · simp only []
        rw [codes_request, codes_request]
    · exact codes_request h s _ ops1
  cases t with
  | press => exact codes_request h s _ ops1
  | release => exact codes_request h s _ ops1
  | toggle => exact codes_request h s _ ops1
  | isPressed => exact codes_request h s _ ops1
  | isReleased => exact codes_request h s _ ops1
  | waitPressed => exact hw _
  | waitReleased => exact hw _
  | waitToggled => exact hw _
  | wait => exact codes_run h ops1 s
  | setInstanceId =>
    rw [CtlSys.makeRequest]
    simp only []
    split
    · rfl
    · exact codes_request h _ _ ops1
  | restart => rfl
  | stdoutResult => rfl
  | setConfigFile =>
    rw [CtlSys.makeRequest]
    simp only []
    cases abs string with
    | none => rfl
    | some f => exact codes_request h s _ ops1
  | nextKeyInfo =>
    show (s.requestInfo h ops1).2.codes = s.codes
    unfold CtlSys.requestInfo
    split
    · rfl
    · simp only []
      split
      · exact codes_run h ops1 _
      · split <;> exact codes_run h ops1 _
  | injectInput => exact codes_request h s _ ops1
  | injectOutput => exact codes_request h s _ ops1
  | typeString => exact codes_request h s _ ops1

/-- **C77** (output): `--stdout` outputs the result of the last request, nothing else outputs results. -/
theorem C77_stdout (h : CtlHost) (abs : Str → Option Str) (s : CtlSys) (result : CtlResult) (before : List CtlEntry) (x : CtlEntry)
    (hb : ∀ y ∈ before, y.1.type ≠ .restart) :
    (s.pass h abs result (before ++ [x])).2.2.codes =
      if x.1.type = .stdoutResult then (s.pass h abs result before).2.2.codes ++ [(s.pass h abs result before).1]
      else (s.pass h abs result before).2.2.codes := by
  rw [C77_order h abs before _ hb]
  obtain ⟨req, ops1, ops2⟩ := x
  rw [CtlSys.pass]
  by_cases hr : req.type = .restart
  · rw [if_pos hr, if_neg (by rw [hr]; decide)]
  · rw [if_neg hr]
    exact codes_makeRequest h abs _ req _ ops1 ops2

/-- the program is managed by an instance id -/
def CtlSys.Managed (s : CtlSys) : Prop := s.instanceId ≠ [] ∧ s.instanceId ≠ ['0']

/-- **C77** (restart): at `--restart` the requests are made from the beginning, the ones behind it are never made; unless
the connection failed and an instance id was set. -/
theorem C77_restart (h : CtlHost) (abs : Str → Option Str) (s : CtlSys) (result : CtlResult) (before after : List CtlEntry) (x : CtlEntry)
    (hx : x.1.type = .restart) (hb : ∀ y ∈ before, y.1.type ≠ .restart) :
    (s.pass h abs result (before ++ x :: after)).1 = (s.pass h abs result before).1 ∧
    (s.pass h abs result (before ++ x :: after)).2.2 = (s.pass h abs result before).2.2 ∧
    ((s.pass h abs result (before ++ x :: after)).2.1 = false ↔
      (s.pass h abs result before).1 = .connectionFailed ∧ (s.pass h abs result before).2.2.Managed) := by
  rw [C77_order h abs before _ hb]
  obtain ⟨req, ops1, ops2⟩ := x
  rw [CtlSys.pass, if_pos hx]
  refine ⟨rfl, rfl, ?_⟩
  unfold CtlSys.Managed
  simp only []
  cases (s.pass h abs result before).1 <;> simp

theorem split_restart (l : List CtlEntry) (h : ∃ x ∈ l, x.1.type = .restart) : ∃ before x after, l = before ++ x :: after ∧
    x.1.type = .restart ∧ ∀ y ∈ before, y.1.type ≠ .restart := by
  induction l with
  | nil => obtain ⟨x, hx, _⟩ := h; cases hx
  | cons a l ih =>
    by_cases ha : a.1.type = .restart
    · exact ⟨[], a, l, rfl, ha, by simp⟩
    · obtain ⟨x, hx, hr⟩ := h
      rcases List.mem_cons.1 hx with rfl | hx
      · exact absurd hr ha
      · obtain ⟨b, x, c, e, h1, h2⟩ := ih ⟨x, hx, hr⟩
        refine ⟨a :: b, x, c, by rw [e]; rfl, h1, ?_⟩
        intro y hy
        rcases List.mem_cons.1 hy with rfl | hy
        · exact ha
        · exact h2 y hy

/-- **C77** (end): a program with `--restart` only ends because the connection failed. -/
theorem C77_ends (abs : Str → Option Str) (requests : List Request) (hr : ∃ r ∈ requests, r.type = .restart) (ps : List PassEvents) :
    ∀ (h : CtlHost) (s : CtlSys) (result code : CtlResult) (s' : CtlSys), s.main abs requests h result ps = (some code, s') →
      code = .connectionFailed := by
  induction ps with
  | nil => intro h s result code s' e; cases e
  | cons p ps ih =>
    intro h s result code s' e
    rw [CtlSys.main] at e
    simp only [] at e
    split at e
    · split at e
      · split at e
        · injection e with e1 _
          injection e1 with e1
          exact e1.symm
        · exact ih _ _ _ _ _ e
      · exact ih _ _ _ _ _ e
    · next hno =>
      injection e with e1 _
      injection e1 with e1
      rw [← e1]
      obtain ⟨r, hmem, hrt⟩ := hr
      have hex : ∃ x ∈ requests.zipIdx.map (fun x => ((x.1, (p.waits[x.2]?).getD ([], [])) : CtlEntry)), x.1.type = .restart := by
        obtain ⟨i, hi, hget⟩ := List.getElem_of_mem hmem
        exact ⟨_, List.mem_map_of_mem (a := (r, i)) (by rw [List.mem_zipIdx_iff_getElem?]; simp [hget.symm]), hrt⟩
      obtain ⟨b, x, c, e2, h1, h2⟩ := split_restart _ hex
      obtain ⟨h3, h4, h5⟩ := C77_restart h abs s result b c x h1 h2
      rw [e2] at hno ⊢
      rw [h3]
      exact (h5.1 (Bool.eq_false_iff.2 hno)).1

/-- **C77** (end): a program without `--restart` ends after its requests. -/
theorem C77_once (abs : Str → Option Str) (requests : List Request) (hr : ∀ r ∈ requests, r.type ≠ .restart) (p : PassEvents) (ps : List PassEvents)
    (h : CtlHost) (s : CtlSys) (result : CtlResult) : ∃ entries : List CtlEntry, entries.map (·.1) = requests ∧
      s.main abs requests h result (p :: ps) = (some (s.pass h abs result entries).1, (s.pass h abs result entries).2.2) := by
  refine ⟨requests.zipIdx.map (fun x => ((x.1, (p.waits[x.2]?).getD ([], [])) : CtlEntry)), ?_, ?_⟩
  · rw [List.map_map]
    exact List.zipIdx_map_fst _ _
  · have hno : (s.pass h abs result (requests.zipIdx.map (fun x => ((x.1, (p.waits[x.2]?).getD ([], [])) : CtlEntry)))).2.1 = false := by
      have : ∀ y ∈ requests.zipIdx.map (fun x => ((x.1, (p.waits[x.2]?).getD ([], [])) : CtlEntry)), y.1.type ≠ .restart := by
        intro y hy
        obtain ⟨⟨r, i⟩, hx, rfl⟩ := List.mem_map.1 hy
        exact hr r (by rw [List.mem_zipIdx_iff_getElem?] at hx; exact List.mem_of_getElem? hx)
      generalize requests.zipIdx.map (fun x => ((x.1, (p.waits[x.2]?).getD ([], [])) : CtlEntry)) = l at this
      clear hr
      induction l generalizing s result with
      | nil => rfl
      | cons y l ih =>
        obtain ⟨q, o1, o2⟩ := y
        rw [CtlSys.pass, if_neg (this (q, o1, o2) (by simp))]
        exact ih _ _ (fun z hz => this z (by simp [hz]))
    rw [CtlSys.main]
    simp only []
    rw [hno]
    rfl

/-! ### examples -/

private def exRequests : List Request := [⟨.isPressed, "Boss".toList, none⟩, ⟨.stdoutResult, [], none⟩, ⟨.isReleased, "Boss".toList, none⟩, ⟨.wait, [], some 10⟩]

/-- `keymapperctl --is-pressed Boss --stdout --is-released Boss --wait 10` outputs `1` and ends with 0, when the key is not pressed -/
example : exCtl.main exAbs exRequests exHost .connectionFailed [⟨[(handled [] exPortFs none [], []), ([], []), (handled [] exPortFs none [], []), ([], [])], none⟩] =
    (some .yes, (exCtl.main exAbs exRequests exHost .connectionFailed [⟨[(handled [] exPortFs none [], []), ([], []), (handled [] exPortFs none [], []), ([], [])], none⟩]).2) ∧
    (exCtl.main exAbs exRequests exHost .connectionFailed [⟨[(handled [] exPortFs none [], []), ([], []), (handled [] exPortFs none [], []), ([], [])], none⟩]).2.codes = [.no] := by
  have h : (exCtl.main exAbs exRequests exHost .connectionFailed [⟨[(handled [] exPortFs none [], []), ([], []), (handled [] exPortFs none [], []), ([], [])], none⟩]).1 = some .yes ∧
    (exCtl.main exAbs exRequests exHost .connectionFailed [⟨[(handled [] exPortFs none [], []), ([], []), (handled [] exPortFs none [], []), ([], [])], none⟩]).2.codes = [.no] := by decide +kernel
  exact ⟨by rw [← h.1], h.2⟩

/-- with `--restart` it goes on, until the connection is lost and cannot be opened again -/
example : (exCtl.main exAbs [⟨.isPressed, "Boss".toList, none⟩, ⟨.restart, [], none⟩] exHost .connectionFailed
      [⟨[(handled [] exPortFs none [], [])], none⟩, ⟨[(handled [] exPortFs none [], [])], none⟩]).1 = none ∧
    (exCtl.main exAbs [⟨.isPressed, "Boss".toList, none⟩, ⟨.restart, [], none⟩] exHost .connectionFailed
      [⟨[(handled [] exPortFs none [], [])], none⟩, ⟨[([.client (.controlClosed 1)], [])], none⟩]).1 = some .connectionFailed := by
  decide +kernel

/-- **C77** does not hold for the exit code of a program without a request to the client: it ends with "connection failed" although it is connected. -/
theorem C77_only_wait_counterexample : exCtl.connected exHost = true ∧
    (exCtl.main exAbs [⟨.wait, [], some 10⟩, ⟨.stdoutResult, [], none⟩] exHost .connectionFailed [{}]).1 = some .connectionFailed ∧
    (exCtl.main exAbs [⟨.wait, [], some 10⟩, ⟨.stdoutResult, [], none⟩] exHost .connectionFailed [{}]).2.codes = [.connectionFailed] := by
  decide +kernel

end KM
