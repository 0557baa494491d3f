import Verif.Spec.FocusedWindow
import Verif.Props.Client
import Verif.Props.ClientLimits
/-!
# C85: the focused window
-/
namespace KM

/-! ### wlroots -/

private theorem lookup_modify (f : Toplevel → Toplevel) (a b : Nat) (l : List (Nat × Toplevel)) :
    (modifyToplevel f a l).lookup b = if b = a then (l.lookup b).map f else l.lookup b := by
  induction l with
  | nil => simp [modifyToplevel]
  | cons p l ih =>
    obtain ⟨c, w⟩ := p
    unfold modifyToplevel at ih ⊢
    rw [List.map_cons]
    by_cases hc : c = a
    · subst hc
      rw [if_pos rfl, List.lookup_cons, List.lookup_cons, ih]
      by_cases hb : b = c
      · subst hb; simp
      · have : (b == c) = false := by simpa using hb
        simp [this, hb]
    · rw [if_neg hc, List.lookup_cons, List.lookup_cons, ih]
      by_cases hb : b = c
      · subst hb; simp [hc]
      · have : (b == c) = false := by simpa using hb
        simp [this]

private theorem lookup_close (a b : Nat) (l : List (Nat × Toplevel)) :
    (l.filter (fun p => p.1 != a)).lookup b = if b = a then none else l.lookup b := by
  induction l with
  | nil => simp
  | cons p l ih =>
    obtain ⟨c, w⟩ := p
    rw [List.filter_cons, List.lookup_cons]
    by_cases hc : c = a
    · subst hc
      rw [if_neg (by simp), ih]
      by_cases hb : b = c
      · subst hb; simp
      · have : (b == c) = false := by simpa using hb
        simp [this]
    · rw [if_pos (by simpa using hc), List.lookup_cons, ih]
      by_cases hb : b = c
      · subst hb; simp [hc]
      · have : (b == c) = false := by simpa using hb
        simp [this]

/-- The system knows the windows of the desktop -/
private structure Knows (s : WlFocus) (d : Desk) : Prop where
  lookup : ∀ a, s.toplevels.lookup a = if a ∈ d.live then some ⟨d.title a, d.appId a⟩ else none
  active : s.active = d.focused

private theorem activated_iff (l : List Nat) (h : ∀ v ∈ l, v < 3) : l.any (fun v => v &&& stateActivated != 0) = decide (2 ∈ l) := by
  rw [Bool.eq_iff_iff, List.any_eq_true, decide_eq_true_eq]
  constructor
  · rintro ⟨v, hv, h2⟩
    have : v = 0 ∨ v = 1 ∨ v = 2 := by have := h v hv; omega
    rcases this with rfl | rfl | rfl
    · simp [stateActivated] at h2
    · simp [stateActivated] at h2
    · exact hv
  · intro h2
    exact ⟨2, h2, by decide⟩

private theorem dispatch_append (s : WlFocus) (w : Window) (l m : List WlEvent) :
    s.dispatch w (l ++ m) = (s.dispatch w l).1.dispatch (s.dispatch w l).2 m := by
  induction l generalizing s w with
  | nil => rfl
  | cons e l ih => exact ih _ _

private theorem knows_step {s : WlFocus} {d : Desk} {before : Window} (h : Knows s d) (hb : before.path = []) (c : DeskChange)
    (hc : d.Possible c) :
    Knows (s.dispatch (d.shown before) c.events).1 (d.step c) ∧
    (s.dispatch (d.shown before) c.events).2 = (d.step c).shown before ∧
    (s.dispatch (d.shown before) c.events).1.updated = (s.updated || decide ((d.step c).shown before ≠ d.shown before)) := by
  cases c with
  | opened a =>
    obtain ⟨h1, h2⟩ := hc
    refine ⟨⟨?_, h.active⟩, ?_, ?_⟩
    · intro b
      show List.lookup b ((a, {}) :: s.toplevels) = _
      rw [List.lookup_cons]
      by_cases hb : b = a
      · subst hb
        simp [Desk.step, setAt]
      · have hb' : (b == a) = false := by simpa using hb
        simp [hb', Desk.step, setAt, hb, h.lookup b]
    · show d.shown before = _
      unfold Desk.shown Desk.step
      simp only
      cases hf : d.focused with
      | none => rfl
      | some f =>
        have : f ≠ a := by rintro rfl; exact h2 hf
        simp [setAt, this]
    · have : (d.step (.opened a)).shown before = d.shown before := by
        unfold Desk.shown Desk.step
        simp only
        cases hf : d.focused with
        | none => rfl
        | some f =>
          have : f ≠ a := by rintro rfl; exact h2 hf
          simp [setAt, this]
      rw [this]
      simp [DeskChange.events, WlFocus.dispatch, WlFocus.handle]
  | closed a =>
    have hshown : (d.step (.closed a)).shown before = d.shown before := rfl
    refine ⟨⟨?_, h.active⟩, rfl, by rw [hshown]; simp [DeskChange.events, WlFocus.dispatch, WlFocus.handle]⟩
    intro b
    show List.lookup b (s.toplevels.filter (fun p => p.1 != a)) = _
    rw [lookup_close, h.lookup]
    by_cases hb : b = a
    · subst hb; simp [Desk.step]
    · simp [Desk.step, hb]
  | changed a t i st =>
    obtain ⟨hlive, hst⟩ := hc
    obtain ⟨w, hw⟩ : ∃ w, w = d.shown before := ⟨_, rfl⟩
    rw [← hw]
    -- before the last event
    obtain ⟨e, he⟩ : ∃ e, e = t.toList.map (WlEvent.title a) ++ i.toList.map (WlEvent.appId a) ++ st.toList.map (WlEvent.state a) := ⟨_, rfl⟩
    have hpre : ∃ s', s.dispatch w e = (s', w) ∧ s'.updated = s.updated ∧ Knows s' (d.step (.changed a t i st)) := by
      have h1 : ∃ s', s.dispatch w (t.toList.map (WlEvent.title a)) = (s', w) ∧ s'.updated = s.updated ∧
          Knows s' { d with title := setAt d.title a (t.getD (d.title a)) } := by
        cases t with
        | none =>
          refine ⟨s, rfl, rfl, ⟨?_, h.active⟩⟩
          intro b
          have : setAt d.title a (d.title a) = d.title := by funext x; simp only [setAt]; split <;> simp_all
          simp only [Option.getD_none, this]
          exact h.lookup b
        | some t =>
          refine ⟨{ s with toplevels := modifyToplevel (fun w => { w with title := t }) a s.toplevels }, rfl, rfl, ⟨?_, h.active⟩⟩
          intro b
          simp only
          rw [lookup_modify, h.lookup]
          by_cases hb : b = a
          · subst hb; simp [setAt, hlive]
          · simp [setAt, hb]
      obtain ⟨s1, g1, g2, g3⟩ := h1
      have h2 : ∃ s', s1.dispatch w (i.toList.map (WlEvent.appId a)) = (s', w) ∧ s'.updated = s1.updated ∧
          Knows s' { d with title := setAt d.title a (t.getD (d.title a)), appId := setAt d.appId a (i.getD (d.appId a)) } := by
        cases i with
        | none =>
          refine ⟨s1, rfl, rfl, ⟨?_, g3.active⟩⟩
          intro b
          have : setAt d.appId a (d.appId a) = d.appId := by funext x; simp only [setAt]; split <;> simp_all
          simp only [Option.getD_none, this]
          exact g3.lookup b
        | some i =>
          refine ⟨{ s1 with toplevels := modifyToplevel (fun w => { w with appId := i }) a s1.toplevels }, rfl, rfl, ⟨?_, g3.active⟩⟩
          intro b
          simp only
          rw [lookup_modify, g3.lookup]
          by_cases hb : b = a
          · subst hb; simp [setAt, hlive]
          · simp [setAt, hb]
      obtain ⟨s2, k1, k2, k3⟩ := h2
      rw [he, dispatch_append, dispatch_append, g1, k1]
      simp only
      cases st with
      | none => exact ⟨s2, rfl, k2.trans g2, ⟨k3.lookup, by rw [k3.active]; simp [Desk.step]⟩⟩
      | some st =>
        refine ⟨if decide (2 ∈ st) then { s2 with active := some a } else s2, ?_, ?_, ?_⟩
        · show (if st.any _ then { s2 with active := some a } else s2, w) = _
          rw [activated_iff st hst]
        · split <;> exact k2.trans g2
        · split
          · next h2 =>
            have h2' : 2 ∈ st := by simpa using h2
            exact ⟨k3.lookup, by simp [Desk.step, h2']⟩
          · next h2 =>
            have h2' : 2 ∉ st := by simpa using h2
            exact ⟨k3.lookup, by rw [k3.active]; simp [Desk.step, h2']⟩
    obtain ⟨s', p1, p2, p3⟩ := hpre
    have hev : (DeskChange.changed a t i st).events = e ++ [.done a] := by rw [he]; rfl
    have hrun : s.dispatch w (DeskChange.changed a t i st).events = s'.handle w (.done a) := by
      rw [hev, dispatch_append, p1]
      rfl
    rw [hrun]
    obtain ⟨d', hd'⟩ : ∃ d', d' = d.step (.changed a t i st) := ⟨_, rfl⟩
    rw [← hd'] at p3 ⊢
    have hlive' : a ∈ d'.live := by rw [hd']; exact hlive
    have hlook := p3.lookup a
    rw [if_pos hlive'] at hlook
    have hother : d'.focused ≠ some a → d'.shown before = w := by
      intro hne
      rw [hw, hd']
      unfold Desk.shown
      have hfoc : (d.step (.changed a t i st)).focused = d.focused := by
        rw [hd'] at hne
        simp only [Desk.step] at hne ⊢
        split
        · next h2 => rw [if_pos h2] at hne; exact absurd rfl hne
        · rfl
      rw [hfoc]
      cases hf : d.focused with
      | none => rfl
      | some f =>
        have : f ≠ a := by
          rintro rfl
          apply hne
          rw [hd', hfoc, hf]
        simp [Desk.step, setAt, this]
    have hpath : w.path = [] := by
      rw [hw]
      unfold Desk.shown
      split
      · rfl
      · exact hb
    unfold WlFocus.handle
    simp only [hlook]
    rw [p3.active]
    by_cases hf : d'.focused = some a
    · have hsh : d'.shown before = { title := d'.title a, cls := d'.appId a, path := [] } := by
        unfold Desk.shown; rw [hf]
      rw [if_pos hf]
      split
      · next hne =>
        refine ⟨⟨p3.lookup, rfl⟩, hsh.symm, ?_⟩
        have : d'.shown before ≠ w := by
          rw [hsh]
          rintro rfl
          simp at hne
        simp [this]
      · next heq =>
        simp only [not_or, Decidable.not_not] at heq
        have hsame : w = d'.shown before := by
          rw [hsh]
          obtain ⟨cls, title, path⟩ := w
          simp only at heq hpath
          rw [heq.1, heq.2, hpath]
        refine ⟨p3, hsame, ?_⟩
        rw [p2, ← hsame]; simp
    · rw [if_neg hf]
      have := hother hf
      exact ⟨p3, this.symm, by rw [p2, this]; simp⟩

private theorem knows_run {s : WlFocus} {d : Desk} {before : Window} (h : Knows s d) (hb : before.path = []) (l : List DeskChange)
    (hl : d.AllPossible l) :
    Knows (s.dispatch (d.shown before) (l.flatMap DeskChange.events)).1 (d.after l) ∧
    (s.dispatch (d.shown before) (l.flatMap DeskChange.events)).2 = (d.after l).shown before ∧
    ((s.dispatch (d.shown before) (l.flatMap DeskChange.events)).1.updated = true ↔
      s.updated = true ∨ ∃ pre, pre <+: l ∧ (d.after pre).shown before ≠ d.shown before) := by
  induction l generalizing s d with
  | nil =>
    refine ⟨h, rfl, ?_⟩
    constructor
    · exact Or.inl
    · rintro (h | ⟨pre, h1, h2⟩)
      · exact h
      · rw [List.prefix_nil.1 h1] at h2
        exact absurd rfl h2
  | cons c l ih =>
    obtain ⟨h1, h2, h3⟩ := knows_step h hb c hl.1
    obtain ⟨g1, g2, g3⟩ := ih h1 hl.2
    rw [List.flatMap_cons, dispatch_append, h2]
    refine ⟨g1, g2, ?_⟩
    rw [g3, h3, Bool.or_eq_true, decide_eq_true_eq]
    constructor
    · rintro ((hu | hc) | ⟨pre, k1, k2⟩)
      · exact Or.inl hu
      · exact Or.inr ⟨[c], by simp, hc⟩
      · by_cases hc : (d.step c).shown before = d.shown before
        · exact Or.inr ⟨c :: pre, by simpa using k1, by rw [← hc]; exact k2⟩
        · exact Or.inr ⟨[c], by simp, hc⟩
    · rintro (hu | ⟨pre, k1, k2⟩)
      · exact Or.inl (Or.inl hu)
      · cases pre with
        | nil => exact absurd rfl k2
        | cons x pre =>
          obtain ⟨hx, k3⟩ := List.cons_prefix_cons.1 k1
          subst hx
          by_cases hc : (d.step x).shown before = d.shown before
          · exact Or.inr ⟨pre, k3, by rw [hc]; exact k2⟩
          · exact Or.inl (Or.inr hc)

/-- Calls of `update`, before each of which the desktop changed -/
def WlFocus.rounds : WlFocus → Window → List (List DeskChange) → WlFocus × Window × List Bool
  | s, w, [] => (s, w, [])
  | s, w, l :: more =>
    let r := WlFocus.update { s with pending := s.pending ++ l.flatMap DeskChange.events } w
    let q := WlFocus.rounds r.1 r.2.1 more
    (q.1, q.2.1, r.2.2 :: q.2.2)

/-- whether something else was shown in between, for each of the calls -/
def Desk.Noticed (before : Window) : Desk → List (List DeskChange) → List Bool → Prop
  | _, [], [] => True
  | d, l :: more, b :: bs =>
    (b = true ↔ ∃ pre, pre <+: l ∧ (d.after pre).shown before ≠ d.shown before) ∧ (d.after l).Noticed before more bs
  | _, _, _ => False

private theorem rounds_spec {s : WlFocus} {d : Desk} {before : Window} (h : Knows s d) (hb : before.path = []) (hp : s.pending = [])
    (hu : s.updated = false) (ll : List (List DeskChange)) (hl : d.AllPossible ll.flatten) :
    (s.rounds (d.shown before) ll).2.1 = (d.after ll.flatten).shown before ∧
    d.Noticed before ll (s.rounds (d.shown before) ll).2.2 := by
  induction ll generalizing s d with
  | nil => exact ⟨rfl, trivial⟩
  | cons l more ih =>
    have split : ∀ (l m : List DeskChange) (d : Desk), d.AllPossible (l ++ m) → d.AllPossible l ∧ (d.after l).AllPossible m := by
      intro l m
      induction l with
      | nil => intro d h; exact ⟨trivial, h⟩
      | cons c l ih => intro d h; exact ⟨⟨h.1, (ih _ h.2).1⟩, (ih _ h.2).2⟩
    obtain ⟨hl1, hl2⟩ := split l more.flatten d hl
    have hk : Knows ({ s with pending := [] } : WlFocus) d := ⟨h.lookup, h.active⟩
    obtain ⟨g1, g2, g3⟩ := knows_run hk hb l hl1
    obtain ⟨r, hr⟩ : ∃ r, r = WlFocus.dispatch { s with pending := [] } (d.shown before) (l.flatMap DeskChange.events) := ⟨_, rfl⟩
    rw [← hr] at g1 g2 g3
    have hpend : ∀ (l : List WlEvent) (s : WlFocus) (w : Window), s.pending = [] → (s.dispatch w l).1.pending = [] := by
      intro l
      induction l with
      | nil => intro s w h; exact h
      | cons e l ih =>
        intro s w h
        apply ih
        cases e <;> simp only [WlFocus.handle] <;> repeat' split
        all_goals exact h
    have hupd : WlFocus.update { s with pending := s.pending ++ l.flatMap DeskChange.events } (d.shown before) =
        ({ r.1 with updated := false }, r.2, r.1.updated) := by
      rw [hp, List.nil_append, hr]
      rfl
    obtain ⟨k1, k2⟩ := ih (s := { r.1 with updated := false }) (d := d.after l) ⟨g1.lookup, g1.active⟩ (by
      rw [hr]
      exact hpend _ _ _ rfl) rfl hl2
    rw [WlFocus.rounds, hupd, g2]
    simp only
    refine ⟨?_, ?_, k2⟩
    · rw [k1, List.flatten_cons]
      unfold Desk.after
      rw [List.foldl_append]
    · rw [g3, hu]
      simp

/-- **C85 (wlroots)** Windows are opened, closed, activated, and change their titles, in any order; `update` is called at any time. Afterwards the title
and the class are the ones of the window which was activated last, and each call of `update` told that there was a change if and only
if something else was shown in the meantime. -/
theorem C85_wlroots {before : Window} (hb : before.path = []) {ll : List (List DeskChange)} (hl : ({} : Desk).AllPossible ll.flatten) :
    (({} : WlFocus).rounds before ll).2.1 = (({} : Desk).after ll.flatten).shown before ∧
    ({} : Desk).Noticed before ll (({} : WlFocus).rounds before ll).2.2 :=
  rounds_spec (s := {}) (d := {}) ⟨fun _ => by simp, rfl⟩ hb rfl rfl ll hl

namespace FocusExample

/-- Two windows are opened, the first one gets the focus and another title, then the second one, which is closed. -/
def changes : List (List DeskChange) :=
  [[.opened 7, .changed 7 (some "mail".toList) (some "browser".toList) (some [2]), .opened 9],
   [.changed 9 (some "sh".toList) (some "terminal".toList) (some [0])],
   [.changed 7 (some "news".toList) none none],
   [.changed 7 none none (some []), .changed 9 none none (some [0, 2]), .closed 7],
   [.changed 9 (some "vi".toList) none none, .closed 9]]

end FocusExample

example : ({} : Desk).AllPossible FocusExample.changes.flatten ∧
    (({} : WlFocus).rounds {} FocusExample.changes).2 =
      ({ title := "vi".toList, cls := "terminal".toList, path := [] }, [true, false, true, true, true]) := by
  refine ⟨?_, by decide +kernel⟩
  simp [FocusExample.changes, Desk.AllPossible, Desk.Possible, Desk.step]

/-- **C85** The address of a closed window can be reused: when the focused window was closed then a new window with the same address is considered focused,
although it is not activated. -/
theorem C85_reused_address_counterexample :
    (({} : WlFocus).rounds {} [[.opened 7, .changed 7 (some "mail".toList) (some "browser".toList) (some [2]), .closed 7],
      [.opened 7, .changed 7 (some "popup".toList) (some "tool".toList) (some [])]]).2 =
      ({ title := "popup".toList, cls := "tool".toList, path := [] }, [true, true]) := by decide +kernel

/-- **C85** The values of states are tested like bits: the state fullscreen (3, version 2 of the protocol, which is not requested) would be taken for
activated. -/
theorem C85_fullscreen_counterexample :
    (({} : WlFocus).rounds {} [[.opened 7, .changed 7 (some "video".toList) (some "player".toList) (some [3])]]).2 =
      ({ title := "video".toList, cls := "player".toList, path := [] }, [true]) := by decide +kernel

/-! ### D-Bus -/

/-- calls of `update`, before each of which messages arrived -/
def DBusFocus.rounds : DBusFocus → Window → List (List (Str × Str)) → DBusFocus × Window × List Bool
  | s, w, [] => (s, w, [])
  | s, w, l :: more =>
    let r := DBusFocus.update { s with pending := s.pending ++ l } w
    let q := DBusFocus.rounds r.1 r.2.1 more
    (q.1, q.2.1, r.2.2 :: q.2.2)

/-- **C85 (D-Bus)** Each message is seen in order by exactly one call of `update`; when as many calls found something as messages were sent, then the window is
the one of the last message. -/
theorem C85_dbus (s : DBusFocus) (w : Window) (ll : List (List (Str × Str))) :
    ∃ seen, s.pending ++ ll.flatten = seen ++ (s.rounds w ll).1.pending ∧ seen.length = (s.rounds w ll).2.2.count true ∧
      (s.rounds w ll).2.1 = (match seen.getLast? with | some m => { title := m.1, cls := m.2, path := [] } | none => w) := by
  induction ll generalizing s w with
  | nil => exact ⟨[], by simp [DBusFocus.rounds], rfl, rfl⟩
  | cons l more ih =>
    rw [DBusFocus.rounds]
    simp only [List.flatten_cons]
    rw [← List.append_assoc]
    generalize s.pending ++ l = p
    cases p with
    | nil =>
      obtain ⟨seen, h1, h2, h3⟩ := ih { pending := [] } w
      exact ⟨seen, h1, by simpa [DBusFocus.update] using h2, h3⟩
    | cons m p =>
      obtain ⟨seen, h1, h2, h3⟩ := ih { pending := p } { title := m.1, cls := m.2, path := [] }
      refine ⟨m :: seen, ?_, ?_, ?_⟩
      · rw [List.cons_append, List.cons_append]
        exact congrArg (m :: ·) h1
      · rw [List.length_cons, h2]
        simp [DBusFocus.update]
      · show (DBusFocus.rounds { pending := p } { title := m.1, cls := m.2, path := [] } more).2.1 = _
        rw [h3]
        cases seen with
        | nil => rfl
        | cons x seen =>
          rw [List.getLast?_cons_cons]
          cases h : (x :: seen).getLast? with
          | none => simp at h
          | some y => rfl

/-- Two messages which arrived at once are seen by two calls. -/
example : (({} : DBusFocus).rounds {} [[("a".toList, "b".toList), ("c".toList, "d".toList)], [], []]) =
    ({}, { title := "c".toList, cls := "d".toList, path := [] }, [true, true, false]) := by decide +kernel

/-! ### X11 -/

/-- calls of `update` -/
def X11Focus.rounds : X11Focus → Window → List XServer → X11Focus × Window × List Bool
  | s, w, [] => (s, w, [])
  | s, w, x :: more =>
    let r := X11Focus.update s w x
    let q := X11Focus.rounds r.1 r.2.1 more
    (q.1, q.2.1, r.2.2 :: q.2.2)

/-- the focused window, unless there is none or it has no class or title -/
def XServer.window? (x : XServer) : Option Window :=
  if x.focused = 0 ∨ x.cls x.focused = [] ∨ x.title x.focused = [] then none
  else some { cls := x.cls x.focused, title := x.title x.focused, path := x.path x.focused }

/-- the last window which was focused -/
def lastWindow (before : Window) (l : List XServer) : Window := ((l.filterMap XServer.window?).getLast?).getD before

/-- **C85 (X11)** When the classes and the paths of windows do not change - but their titles and the focus do - then the window is always
the one which was focused when `update` was called last (with a class and a title); and as long as `update` does not tell so, there is no other window. -/
theorem C85_x11 (cls path : Nat → Str) (l : List XServer) (hl : ∀ x ∈ l, x.cls = cls ∧ x.path = path) :
    (({} : X11Focus).rounds {} l).2.1 = lastWindow {} l ∧
    (∀ i, ((({} : X11Focus).rounds {} l).2.2)[i]? = some false → lastWindow {} (l.take (i + 1)) = lastWindow {} (l.take i)) := by
  have cons : ∀ (w : Window) (x : XServer) (l : List XServer), lastWindow w (x :: l) = lastWindow (x.window?.getD w) l := by
    intro w x l
    unfold lastWindow
    rw [List.filterMap_cons]
    cases x.window? with
    | none => rfl
    | some v =>
      simp only [Option.getD_some]
      cases l.filterMap XServer.window? with
      | nil => rfl
      | cons y ys => rw [List.getLast?_cons_cons]; cases h : (y :: ys).getLast? <;> simp_all
  have gen : ∀ (s : X11Focus) (w : Window), (s.focused = 0 ∧ w = {} ∨ s.focused ≠ 0 ∧ w.cls = cls s.focused ∧ w.path = path s.focused ∧ w.title ≠ [] ∧ w.cls ≠ []) →
      (s.rounds w l).2.1 = lastWindow w l ∧
      (∀ i, ((s.rounds w l).2.2)[i]? = some false → lastWindow w (l.take (i + 1)) = lastWindow w (l.take i)) := by
    induction l with
    | nil => intro s w _; exact ⟨rfl, fun i h => by simp [X11Focus.rounds] at h⟩
    | cons x l ih =>
      intro s w hw
      obtain ⟨hc, hp⟩ := hl x (by simp)
      have step : (s.update w x).2.1 = x.window?.getD w ∧ ((s.update w x).2.2 = false → x.window?.getD w = w) ∧
          ((s.update w x).1.focused = 0 ∧ (s.update w x).2.1 = {} ∨ (s.update w x).1.focused ≠ 0 ∧
            (s.update w x).2.1.cls = cls (s.update w x).1.focused ∧ (s.update w x).2.1.path = path (s.update w x).1.focused ∧
            (s.update w x).2.1.title ≠ [] ∧ (s.update w x).2.1.cls ≠ []) := by
        unfold X11Focus.update
        simp only
        split
        · next h =>
          obtain ⟨h1, h2⟩ := h
          have : x.window?.getD w = w := by
            unfold XServer.window?
            split
            · rfl
            · next hn =>
              simp only [not_or] at hn
              rcases hw with ⟨h0, _⟩ | ⟨h0, hwc, hwp, _⟩
              · exact absurd (h1.trans h0) hn.1
              · simp only [Option.getD_some]
                rw [xProperty, if_neg hn.1] at h2
                obtain ⟨wc, wt, wp⟩ := w
                simp only at h2 hwc hwp
                rw [h2, hwc, hwp, hc, hp, h1]
          exact ⟨this.symm, fun _ => this, hw⟩
        · split
          · next h =>
            have : x.window?.getD w = w := by
              unfold XServer.window?
              by_cases h0 : x.focused = 0
              · rw [if_pos (Or.inl h0)]; rfl
              · rw [xProperty, xProperty, if_neg h0, if_neg h0, Bool.or_eq_true, List.isEmpty_iff, List.isEmpty_iff] at h
                rw [if_pos (Or.inr h)]; rfl
            exact ⟨this.symm, fun _ => this, hw⟩
          · next h =>
            have h0 : x.focused ≠ 0 := by
              intro h0
              rw [xProperty, if_pos h0] at h
              simp at h
            rw [xProperty, xProperty, if_neg h0, if_neg h0, Bool.or_eq_true, List.isEmpty_iff, List.isEmpty_iff, not_or] at h
            have hx : x.window? = some { cls := x.cls x.focused, title := x.title x.focused, path := x.path x.focused } := by
              unfold XServer.window?
              rw [if_neg (by simp [h0, h.1, h.2])]
            rw [hx]
            simp only [xProperty, if_neg h0, Option.getD_some]
            refine ⟨trivial, by simp, Or.inr ⟨h0, by rw [hc], by rw [hp], h.2, h.1⟩⟩
      obtain ⟨s1, s2, s3⟩ := step
      obtain ⟨k1, k2⟩ := ih (fun y hy => hl y (by simp [hy])) _ _ s3
      rw [X11Focus.rounds]
      simp only
      rw [s1] at k1 k2
      refine ⟨?_, ?_⟩
      · rw [cons, ← k1, s1]
      · intro i hi
        cases i with
        | zero =>
          rw [List.getElem?_cons_zero, Option.some.injEq] at hi
          rw [List.take_succ_cons, List.take_zero, List.take_zero, cons, s2 hi]
        | succ i =>
          rw [List.getElem?_cons_succ, s1] at hi
          rw [List.take_succ_cons, List.take_succ_cons, cons, cons]
          exact k2 i hi
  exact gen {} {} (Or.inl ⟨rfl, rfl⟩)

/-- **C85 (X11)** A call of `update` does not tell so again, when the same window with the same title is still focused. -/
theorem C85_x11_quiet (s : X11Focus) (w : Window) (l : List XServer) (i : Nat) (x y : XServer) (hx : l[i]? = some x) (hy : l[i + 1]? = some y)
    (hw : x.window?.isSome) (hf : y.focused = x.focused) (ht : y.title x.focused = x.title x.focused) :
    ((s.rounds w l).2.2)[i + 1]? = some false := by
  induction l generalizing s w i with
  | nil => simp at hx
  | cons z l ih =>
    rw [List.getElem?_cons_succ] at hy
    rw [X11Focus.rounds]
    simp only [List.getElem?_cons_succ]
    cases i with
    | succ i => exact ih _ _ i (by simpa using hx) hy
    | zero =>
      rw [List.getElem?_cons_zero, Option.some.injEq] at hx
      subst hx
      cases l with
      | nil => simp at hy
      | cons z' l =>
        rw [List.getElem?_cons_zero, Option.some.injEq] at hy
        subst hy
        rw [X11Focus.rounds]
        simp only [List.getElem?_cons_zero, Option.some.injEq]
        have hz : ¬ (z.focused = 0 ∨ z.cls z.focused = [] ∨ z.title z.focused = []) := by
          intro h
          rw [XServer.window?, if_pos h] at hw
          simp at hw
        simp only [not_or] at hz
        have h1 : (s.update w z).1.focused = z.focused ∧ (s.update w z).2.1.title = z.title z.focused := by
          unfold X11Focus.update
          simp only [xProperty, if_neg hz.1]
          split
          · next h => exact ⟨h.1.symm, h.2.symm⟩
          · rw [if_neg (by simp [hz.2.1, hz.2.2])]
            exact ⟨rfl, rfl⟩
        generalize (s.update w z).1 = s' at h1
        generalize (s.update w z).2.1 = w' at h1
        unfold X11Focus.update
        simp only [xProperty, hf, if_neg hz.1]
        rw [if_pos ⟨h1.1.symm, by rw [ht]; exact h1.2.symm⟩]

namespace FocusExample

/-- the X server with two windows -/
def server (focused : Nat) (title : String) : XServer :=
  { focused := focused, cls := fun w => if w = 1 then "a".toList else "b".toList, title := fun _ => title.toList, path := fun _ => "/bin/x".toList }

end FocusExample

example : (({} : X11Focus).rounds {} [FocusExample.server 1 "t", FocusExample.server 1 "t", FocusExample.server 0 "", FocusExample.server 2 "u",
      FocusExample.server 2 ""]).2 =
    ({ cls := "b".toList, title := "u".toList, path := "/bin/x".toList }, [true, false, false, true, false]) := by decide +kernel

/-- **C85** A window which changes its class but not its title is not noticed. -/
theorem C85_class_counterexample :
    (({} : X11Focus).rounds {} [FocusExample.server 1 "t", { FocusExample.server 1 "t" with cls := fun _ => "c".toList }]).2 =
    ({ cls := "a".toList, title := "t".toList, path := "/bin/x".toList }, [true, false]) := by decide +kernel

/-! ### all systems -/

/-- **C85** As long as no X11 window is focused, the X11 system does not affect the others. -/
theorem C85_x11_idle (f : Focus) (x : XServer) (h : x.focused = 0) :
    (f.update x).2 = (({ f with x11 := none } : Focus).update x).2 ∧
    ({ (f.update x).1 with x11 := none } : Focus) = (({ f with x11 := none } : Focus).update x).1 ∧ (f.update x).1.x11 = f.x11 := by
  have h1 : ∀ (s : X11Focus) (d : Window), s.update d x = (s, d, false) := by
    intro s d
    unfold X11Focus.update
    simp only [xProperty, h, if_pos]
    split
    · rfl
    · simp
  obtain ⟨x11, dbus, wl, data⟩ := f
  have h2 : updateSystem x11 data (fun s d => s.update d x) = (x11, data, false) := by
    unfold updateSystem
    cases x11 with
    | none => rfl
    | some s => simp only [h1]
  have h3 : updateSystem (none : Option X11Focus) data (fun s d => s.update d x) = (none, data, false) := rfl
  unfold Focus.update
  simp only [h2, h3]
  cases (updateSystem dbus data DBusFocus.update).2.2 <;> exact ⟨rfl, rfl, rfl⟩

private theorem handle_quiet (s : WlFocus) (d : Window) (e : WlEvent) :
    (s.updated = true → (s.handle d e).1.updated = true) ∧ ((s.handle d e).1.updated = false → (s.handle d e).2 = d) := by
  cases e <;> simp only [WlFocus.handle] <;> repeat' split
  all_goals simp_all

private theorem dispatch_quiet (l : List WlEvent) (s : WlFocus) (d : Window) (h : (s.dispatch d l).1.updated = false) :
    s.updated = false ∧ (s.dispatch d l).2 = d := by
  induction l generalizing s d with
  | nil => exact ⟨h, rfl⟩
  | cons e l ih =>
    obtain ⟨h1, h2⟩ := ih _ _ h
    obtain ⟨g1, g2⟩ := handle_quiet s d e
    have g3 := g2 h1
    refine ⟨?_, ?_⟩
    · cases hs : s.updated with
      | false => rfl
      | true => rw [g1 hs] at h1; simp at h1
    · show (WlFocus.dispatch _ _ l).2 = _
      rw [h2, g3]

/-- **C85** Whichever systems are available and whatever they are told: when `update` tells nothing, then the window is still the same. -/
theorem C85_no_silent_change (f : Focus) (x : XServer) (h : (f.update x).2 = false) : (f.update x).1.data = f.data := by
  have hx : ∀ (s : X11Focus) (d : Window), (s.update d x).2.2 = false → (s.update d x).2.1 = d := by
    intro s d
    unfold X11Focus.update
    simp only
    split
    · simp
    · split <;> simp
  have hd : ∀ (s : DBusFocus) (d : Window), (s.update d).2.2 = false → (s.update d).2.1 = d := by
    intro s d
    unfold DBusFocus.update
    split <;> simp
  have hw : ∀ (s : WlFocus) (d : Window), (s.update d).2.2 = false → (s.update d).2.1 = d := by
    intro s d h
    exact (dispatch_quiet _ _ _ h).2
  have lift : ∀ {σ : Type} (s : Option σ) (d : Window) (u : σ → Window → σ × Window × Bool),
      (∀ s d, (u s d).2.2 = false → (u s d).2.1 = d) → (updateSystem s d u).2.2 = false → (updateSystem s d u).2.1 = d := by
    intro σ s d u hu
    cases s with
    | none => intro _; rfl
    | some s => exact hu s d
  unfold Focus.update at h ⊢
  simp only at h ⊢
  have ha := lift f.x11 f.data (fun s d => s.update d x) hx
  generalize updateSystem f.x11 f.data (fun s d => s.update d x) = a at *
  cases hab : a.2.2 with
  | true => rw [hab] at h; simp at h
  | false =>
    rw [ha hab] at h ⊢
    rw [hab] at h
    simp only [Bool.false_eq_true, if_false] at h ⊢
    have hb := lift f.dbus f.data DBusFocus.update hd
    generalize updateSystem f.dbus f.data DBusFocus.update = b at *
    cases hbb : b.2.2 with
    | true => rw [hbb] at h; simp at h
    | false =>
      rw [hb hbb] at h ⊢
      rw [hbb] at h
      simp only [Bool.false_eq_true, if_false] at h ⊢
      exact lift f.wl f.data WlFocus.update hw h

/-- **C85** The systems disturb each other: a window which is told by D-Bus is replaced by the focused X11 window with the next call, although nothing
changed there. -/
theorem C85_mixed_counterexample :
    (let f : Focus := { x11 := some {}, dbus := some {} }
     let x := FocusExample.server 1 "t"
     let f1 := (f.update x).1
     let f2 := ({ f1 with dbus := some { pending := [("u".toList, "v".toList)] } } : Focus).update x
     let f3 := f2.1.update x
     (f1.data.title, f2.2, f2.1.data.title, f3.2, f3.1.data.title) = ("t".toList, true, "u".toList, true, "t".toList)) := by decide +kernel

/-! ### the active contexts -/

/-- What the client does, with the changes of the desktop before each of its steps: it asks for the focused window when it updates the
active contexts; in the other steps no change is seen. -/
def Observes : WlFocus → Window → List (List DeskChange × ClientOp) → Prop
  | _, _, [] => True
  | s, w, (l, op) :: more =>
    let s : WlFocus := { s with pending := s.pending ++ l.flatMap DeskChange.events }
    match op with
    | .updateContexts u =>
      u = (if (s.update w).2.2 then some (s.update w).2.1 else none) ∧ Observes (s.update w).1 (s.update w).2.1 more
    | op => op.window = none ∧ Observes s w more

private theorem allPossible_append (l m : List DeskChange) (d : Desk) (h : d.AllPossible (l ++ m)) :
    d.AllPossible l ∧ (d.after l).AllPossible m := by
  induction l generalizing d with
  | nil => exact ⟨trivial, h⟩
  | cons c l ih => exact ⟨⟨h.1, (ih _ h.2).1⟩, (ih _ h.2).2⟩

private theorem after_append (d : Desk) (l m : List DeskChange) : d.after (l ++ m) = (d.after l).after m := by
  unfold Desk.after
  rw [List.foldl_append]

private theorem dispatch_pending (l : List WlEvent) (s : WlFocus) (w : Window) : (s.dispatch w l).1.pending = s.pending := by
  induction l generalizing s w with
  | nil => rfl
  | cons e l ih =>
    show (WlFocus.dispatch _ _ l).1.pending = _
    rw [ih]
    cases e <;> simp only [WlFocus.handle] <;> repeat' split
    all_goals rfl

private theorem observe_spec {before : Window} (hb : before.path = []) (sess : List (List DeskChange × ClientOp)) :
    ∀ (s : WlFocus) (d : Desk) (pend : List DeskChange), Knows s d → s.updated = false → s.pending = pend.flatMap DeskChange.events →
      d.AllPossible (pend ++ (sess.map (·.1)).flatten) → Observes s (d.shown before) sess →
      (∃ u, (sess.map (·.2)).getLast? = some (.updateContexts u)) →
      ((∀ x ∈ sess, x.2.window = none) ∧ (d.after (pend ++ (sess.map (·.1)).flatten)).shown before = d.shown before) ∨
      (∃ a v rest, sess.map (·.2) = a ++ .updateContexts (some v) :: rest ∧ (∀ op ∈ rest, op.window = none) ∧
        v = (d.after (pend ++ (sess.map (·.1)).flatten)).shown before) := by
  induction sess with
  | nil => intro s d pend _ _ _ _ _ ⟨u, hu⟩; simp at hu
  | cons x more ih =>
    obtain ⟨l, op⟩ := x
    intro s d pend hk hu hp hpos hobs hlast
    have other : op.window = none → Observes { s with pending := s.pending ++ l.flatMap DeskChange.events } (d.shown before) more →
        (∃ u, (more.map (·.2)).getLast? = some (.updateContexts u)) →
        ((∀ x ∈ (l, op) :: more, x.2.window = none) ∧ (d.after (pend ++ (((l, op) :: more).map (·.1)).flatten)).shown before = d.shown before) ∨
        (∃ a v rest, ((l, op) :: more).map (·.2) = a ++ .updateContexts (some v) :: rest ∧ (∀ op ∈ rest, op.window = none) ∧
          v = (d.after (pend ++ (((l, op) :: more).map (·.1)).flatten)).shown before) := by
      intro hw ho hl
      have e : pend ++ (((l, op) :: more).map (·.1)).flatten = (pend ++ l) ++ (more.map (·.1)).flatten := by simp
      rw [e] at hpos ⊢
      rcases ih { s with pending := s.pending ++ l.flatMap DeskChange.events } d (pend ++ l) ⟨hk.lookup, hk.active⟩ hu
        (by simp [hp]) hpos ho hl with ⟨h1, h2⟩ | ⟨a, v, rest, h1, h2, h3⟩
      · refine Or.inl ⟨?_, h2⟩
        intro x hx
        rcases List.mem_cons.1 hx with rfl | hx
        · exact hw
        · exact h1 x hx
      · exact Or.inr ⟨op :: a, v, rest, by rw [List.map_cons, h1]; rfl, h2, h3⟩
    have lastMore : (∀ u, op ≠ .updateContexts u) → ∃ u, (more.map (·.2)).getLast? = some (.updateContexts u) := by
      intro hne
      obtain ⟨u, hu⟩ := hlast
      cases more with
      | nil =>
        simp only [List.map_cons, List.map_nil, List.getLast?_singleton, Option.some.injEq] at hu
        exact absurd hu (hne u)
      | cons y more => exact ⟨u, by simpa using hu⟩
    cases op with
    | updateContexts u =>
      obtain ⟨o1, o2⟩ := hobs
      have e : pend ++ (((l, ClientOp.updateContexts u) :: more).map (·.1)).flatten = (pend ++ l) ++ (more.map (·.1)).flatten := by simp
      rw [e] at hpos ⊢
      obtain ⟨hp1, hp2⟩ := allPossible_append _ _ _ hpos
      obtain ⟨g1, g2, g3⟩ := knows_run (s := { s with pending := [] }) ⟨hk.lookup, hk.active⟩ hb (pend ++ l) hp1
      obtain ⟨r, hr⟩ : ∃ r, r = WlFocus.dispatch { s with pending := [] } (d.shown before) ((pend ++ l).flatMap DeskChange.events) := ⟨_, rfl⟩
      rw [← hr] at g1 g2 g3
      have hupd : WlFocus.update { s with pending := s.pending ++ l.flatMap DeskChange.events } (d.shown before) =
          ({ r.1 with updated := false }, r.2, r.1.updated) := by
        rw [hp, ← List.flatMap_append, hr]
        rfl
      have hrp : r.1.pending = [] := by rw [hr, dispatch_pending]
      rw [hupd, g2] at o1 o2
      simp only at o1 o2
      have same : r.1.updated = false → (d.after (pend ++ l)).shown before = d.shown before := by
        intro hf
        rw [← g2, hr]
        rw [hr] at hf
        exact (dispatch_quiet _ _ _ hf).2
      rw [after_append]
      -- the rest
      by_cases hmore : more = []
      · subst hmore
        simp only [List.map_nil, List.flatten_nil]
        show _ ∨ ∃ a v rest, _ ∧ _ ∧ v = (d.after (pend ++ l)).shown before
        cases hru : r.1.updated with
        | false =>
          rw [hru] at o1
          left
          refine ⟨?_, same hru⟩
          intro x hx
          rw [List.mem_singleton] at hx
          subst hx
          exact o1
        | true =>
          rw [hru] at o1
          right
          refine ⟨[], _, [], ?_, by simp, rfl⟩
          rw [o1]; rfl
      · have hl' : ∃ u, (more.map (·.2)).getLast? = some (.updateContexts u) := by
          obtain ⟨u, hu⟩ := hlast
          obtain ⟨y, ys, rfl⟩ := List.exists_cons_of_ne_nil hmore
          exact ⟨u, by simpa using hu⟩
        rcases ih { r.1 with updated := false } (d.after (pend ++ l)) [] ⟨g1.lookup, g1.active⟩ rfl (by simpa using hrp)
          (by simpa using hp2) o2 hl' with ⟨h1, h2⟩ | ⟨a, v, rest, h1, h2, h3⟩
        · rw [List.nil_append] at h2
          cases hru : r.1.updated with
          | false =>
            rw [hru] at o1
            left
            refine ⟨?_, by rw [h2, same hru]⟩
            intro x hx
            rcases List.mem_cons.1 hx with rfl | hx
            · exact o1
            · exact h1 x hx
          | true =>
            rw [hru] at o1
            right
            refine ⟨[], _, more.map (·.2), ?_, ?_, h2.symm⟩
            · rw [o1]; rfl
            · intro op hop
              obtain ⟨y, hy, rfl⟩ := List.mem_map.1 hop
              exact h1 y hy
        · rw [List.nil_append] at h3
          right
          exact ⟨_ :: a, v, rest, by rw [List.map_cons, h1]; rfl, h2, h3⟩
    | connect u => exact other hobs.1 hobs.2 (lastMore (by simp))
    | lost => exact other hobs.1 hobs.2 (lastMore (by simp))
    | disconnected => exact other hobs.1 hobs.2 (lastMore (by simp))
    | autoUpdate f u => exact other hobs.1 hobs.2 (lastMore (by simp))
    | server m => exact other hobs.1 hobs.2 (lastMore (by simp))
    | accept n => exact other hobs.1 hobs.2 (lastMore (by simp))
    | control f u n m => exact other hobs.1 hobs.2 (lastMore (by simp))
    | controlClosed n => exact other hobs.1 hobs.2 (lastMore (by simp))
    | toggleActive u => exact other hobs.1 hobs.2 (lastMore (by simp))
    | reload f u => exact other hobs.1 hobs.2 (lastMore (by simp))
    | requestKeyInfo => exact other hobs.1 hobs.2 (lastMore (by simp))

/-- **C85, C60** The contexts which are active in the server are the ones which match the window activated last, whatever happened to the windows and to the
client before, as soon as it updated the active contexts. -/
theorem C85_contexts (env : ClientEnv) (fs : FileSys) (filename : Str) (sess : List (List DeskChange × ClientOp))
    (hpos : ({} : Desk).AllPossible (sess.map (·.1)).flatten) (hobs : Observes {} {} sess)
    (hlast : ∃ u, (sess.map (·.2)).getLast? = some (.updateContexts u))
    (hshown : (({} : Desk).after (sess.map (·.1)).flatten).shown {} ≠ {})
    (hs : NoSwitchFails env (Client.start env fs filename) (sess.map (·.2)))
    (ht : ∀ x ∈ sess, x.2.isToggle = false) (hc : connectedAfter (sess.map (·.2)) = true) :
    ∃ config, (serverView ((Client.start env fs filename).run env (sess.map (·.2))).out).config = some config ∧
      AreMatching env.rx config ((({} : Desk).after (sess.map (·.1)).flatten).shown {})
        (serverView ((Client.start env fs filename).run env (sess.map (·.2))).out).active := by
  rcases observe_spec (before := {}) rfl sess {} {} [] ⟨fun _ => by simp, rfl⟩ rfl rfl hpos hobs hlast with ⟨_, h⟩ | ⟨a, v, rest, h1, h2, h3⟩
  · exact absurd h hshown
  · rw [List.nil_append] at h3
    have ht' : ∀ op ∈ sess.map (·.2), op.isToggle = false := by
      intro op hop
      obtain ⟨x, hx, rfl⟩ := List.mem_map.1 hop
      exact ht x hx
    rw [h1] at hs hc ht' ⊢
    rw [← h3]
    refine C60_follows_focus env fs filename a rest v hs ?_ ?_ hc
    · have : a.filter ClientOp.isToggle = [] := by
        rw [List.filter_eq_nil_iff]
        intro op ho
        simp [ht' op (by simp [ho])]
      rw [ClientActive, this]
      rfl
    · intro op hop
      exact ⟨h2 op hop, ht' op (by simp [hop])⟩

/-- A window is opened while the client is not connected, changes its title, and another one is opened but not activated -/
def FocusExample.session : List (List DeskChange × ClientOp) :=
  [([.opened 7, .changed 7 (some "no".toList) (some "x".toList) (some [2])], .connect none),
   ([], .updateContexts (some { title := "no".toList, cls := "x".toList })),
   ([.changed 7 (some "an yes".toList) none none, .opened 8], .updateContexts (some { title := "an yes".toList, cls := "x".toList })),
   ([.changed 8 (some "other".toList) (some "app".toList) none], .updateContexts none)]

example : ({} : Desk).AllPossible (FocusExample.session.map (·.1)).flatten ∧ Observes {} {} FocusExample.session ∧
    (({} : Desk).after (FocusExample.session.map (·.1)).flatten).shown {} = exWindow ∧
    connectedAfter (FocusExample.session.map (·.2)) = true ∧
    (serverView ((Client.start exEnv exFs "a".toList).run exEnv (FocusExample.session.map (·.2))).out).active = [0, 1, 2] := by
  refine ⟨?_, ?_, by decide +kernel, by decide +kernel, by decide +kernel⟩
  · simp [FocusExample.session, Desk.AllPossible, Desk.Possible, Desk.step]
  · refine ⟨rfl, by decide +kernel, by decide +kernel, by decide +kernel, trivial⟩

end KM
