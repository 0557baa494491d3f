import Verif.Model.Notification
import Verif.Spec.Shell
import Verif.Props.KeyNames
import Verif.Props.Notifications
import Verif.Spec.Document
/-!
# C87: the information about a key
-/
namespace KM

/-! ### the notification -/

/-- Messages which are shown as they are: they contain neither `$` nor a backtick, and each backslash is followed by something else than a backslash, a quote or the end of the
line or of the message. -/
def Showable (m : Str) : Prop :=
  (∀ c ∈ m, c ≠ '$' ∧ c ≠ '`') ∧ ∀ a b, m = a ++ '\\' :: b → ∃ c b', b = c :: b' ∧ c ≠ '\\' ∧ c ≠ '"' ∧ c ≠ '\n'

private theorem Showable.tail {c : Char} {m : Str} (h : Showable (c :: m)) : Showable m :=
  ⟨fun d hd => h.1 d (List.mem_cons_of_mem _ hd), fun a b e => h.2 (c :: a) b (by rw [e]; rfl)⟩

/-- every backslash doubled -/
private def doubled (m : Str) : Str := m.flatMap (fun x => if x = '\\' then ['\\', '\\'] else [x])

private theorem escape_cons (c : Char) (m : Str) : escapeMessage (c :: m) = escapeMessage [c] ++ escapeMessage m := by
  simp [escapeMessage, replaceChar, List.flatMap_append]

private theorem escape_append (a b : Str) : escapeMessage (a ++ b) = escapeMessage a ++ escapeMessage b := by
  simp [escapeMessage, replaceChar, List.flatMap_append]

private theorem escape_other {c : Char} (h1 : c ≠ '\\') (h2 : c ≠ '"') : escapeMessage [c] = [c] := by
  simp [escapeMessage, replaceChar, h1, h2]

private theorem escape_quote : escapeMessage ['"'] = ['\\', '"'] := by decide +kernel

private theorem escape_backslash : escapeMessage ['\\'] = ['\\', '\\', '\\'] := by decide +kernel

private theorem quoted_plain {output : Str → Str} {acc : Str} {r : ShellRun} {c : Char} {t : Str} (h1 : c ≠ '\\') (h2 : c ≠ '"') (h3 : c ≠ '$') (h4 : c ≠ '`') :
    shellGo output (.quoted acc) r (c :: t) = shellGo output (.quoted (acc ++ [c])) r t := by
  rw [shellGo]
  · simp [h1, h2, h3, h4]
  · intro c' s e; exact absurd e h1
  · intro s e; exact absurd e h3

private theorem quoted_escaped {output : Str → Str} {acc : Str} {r : ShellRun} {c : Char} {t : Str} :
    shellGo output (.quoted acc) r ('\\' :: c :: t) =
      if shellEscapable c then shellGo output (.quoted (acc ++ [c])) r t
      else if c = '\n' then shellGo output (.quoted acc) r t
      else shellGo output (.quoted (acc ++ ['\\', c])) r t := by
  rw [shellGo]

private theorem shell_showable {output : Str → Str} : ∀ (n : Nat) {m acc t : Str} {r : ShellRun}, m.length = n → Showable m →
    shellGo output (.quoted acc) r (escapeMessage m ++ t) = shellGo output (.quoted (acc ++ doubled m)) r t := by
  intro n
  induction n using Nat.strongRecOn with
  | ind n ih =>
    intro m acc t r hl h
    cases m with
    | nil =>
      rw [show doubled [] = [] from rfl, List.append_nil]
      rfl
    | cons c m =>
      have hc := h.1 c (List.mem_cons_self ..)
      have hm := h.tail
      rw [escape_cons, List.append_assoc]
      by_cases hb : c = '\\'
      · subst hb
        obtain ⟨d, m', rfl, hd1, hd2, hd3⟩ := h.2 [] m rfl
        have hd := hm.1 d (List.mem_cons_self ..)
        rw [escape_cons d m', escape_backslash, escape_other hd1 hd2]
        show shellGo output (.quoted acc) r ('\\' :: '\\' :: '\\' :: d :: (escapeMessage m' ++ t)) = _
        rw [quoted_escaped, if_pos (by decide), quoted_escaped, if_neg (by simp [shellEscapable, hd1, hd2, hd.1, hd.2]), if_neg hd3]
        rw [ih m'.length (by simp at hl; omega) rfl hm.tail]
        rw [show doubled ('\\' :: d :: m') = '\\' :: '\\' :: d :: doubled m' by simp [doubled, hd1]]
        simp
      · have e : doubled (c :: m) = c :: doubled m := by simp [doubled, hb]
        by_cases hq : c = '"'
        · subst hq
          rw [escape_quote]
          show shellGo output (.quoted acc) r ('\\' :: '"' :: (escapeMessage m ++ t)) = _
          rw [quoted_escaped, if_pos (by decide), ih m.length (by simp at hl; omega) rfl hm, e]
          simp
        · rw [escape_other hb hq]
          show shellGo output (.quoted acc) r (c :: (escapeMessage m ++ t)) = _
          rw [quoted_plain hb hq hc.1 hc.2, ih m.length (by simp at hl; omega) rfl hm, e]
          simp

private theorem strcompress_plain {c : Char} (h : c ≠ '\\') (s : Str) : strcompress (c :: s) = (strcompress s).map (c :: ·) := by
  rw [strcompress]
  · intro e; exact absurd e h
  · intro c' s' e; exact absurd e h

private theorem strcompress_doubled (m : Str) : strcompress (doubled m) = some m := by
  induction m with
  | nil => rfl
  | cons c m ih =>
    by_cases hc : c = '\\'
    · subst hc
      rw [show doubled ('\\' :: m) = '\\' :: '\\' :: doubled m from rfl, strcompress, ih]
      rfl
    · rw [show doubled (c :: m) = c :: doubled m by simp [doubled, hc], strcompress_plain hc, ih]
      rfl

private theorem command_start (output : Str → Str) (t : Str) :
    shell output ("notify-send -a keymapper keymapper \"".toList ++ t) =
      shellGo output (.quoted []) { arguments := ["notify-send".toList, "-a".toList, "keymapper".toList, "keymapper".toList] } t := by
  rfl

/-- **C87** A message without special characters is shown as it is, and nothing else is executed. -/
theorem C87_shown (output : Str → Str) (m : Str) (h : Showable m) :
    ∃ run, shell output (notificationCommand m) = some run ∧ run.executed = [] ∧ notifySend run.arguments = some m := by
  refine ⟨{ arguments := ["notify-send".toList, "-a".toList, "keymapper".toList, "keymapper".toList, doubled m] }, ?_, rfl, ?_⟩
  · unfold notificationCommand
    rw [List.append_assoc, command_start, shell_showable _ rfl h]
    rfl
  · simp only [notifySend]
    rw [strcompress_doubled]
    rfl

/-- the same as a test -/
def showableB : Str → Bool
  | [] => true
  | c :: m =>
    if c == '\\' then
      match m with
      | [] => false
      | d :: _ => d != '\\' && d != '"' && d != '\n' && showableB m
    else c != '$' && c != '`' && showableB m

theorem showable_of_test : ∀ m : Str, showableB m = true → Showable m := by
  intro m
  induction m with
  | nil => intro _; exact ⟨by simp, fun a b e => by simp at e⟩
  | cons c m ih =>
    intro h
    unfold showableB at h
    by_cases hc : c = '\\'
    · subst hc
      simp only [beq_self_eq_true, if_true] at h
      cases m with
      | nil => simp at h
      | cons d m =>
        simp only [Bool.and_eq_true, bne_iff_ne, ne_eq] at h
        have hm := ih h.2
        refine ⟨?_, ?_⟩
        · intro x hx
          rcases List.mem_cons.1 hx with rfl | hx
          · decide
          · exact hm.1 x hx
        · intro a b e
          cases a with
          | nil => injection e with _ e; exact ⟨d, m, e.symm, h.1.1.1, h.1.1.2, h.1.2⟩
          | cons x a => injection e with _ e; exact hm.2 a b e
    · rw [if_neg (by simpa using hc)] at h
      simp only [Bool.and_eq_true, bne_iff_ne, ne_eq] at h
      have hm := ih h.2
      refine ⟨?_, ?_⟩
      · intro x hx
        rcases List.mem_cons.1 hx with rfl | hx
        · exact h.1
        · exact hm.1 x hx
      · intro a b e
        cases a with
        | nil => injection e with e _; exact absurd e hc
        | cons x a => injection e with _ e; exact hm.2 a b e

example : Showable "a \"quoted\" text; in C:\\Windows\nand #2 (of < 3) 'end'".toList := showable_of_test _ (by decide +kernel)

/-- **C87** A backslash before a quote ends the text of the command: the rest of the message is read as further arguments. -/
theorem C87_quote_counterexample :
    shell (fun _ => []) (notificationCommand "\\\" --urgency=low \\\"".toList) =
      some { arguments := ["notify-send".toList, "-a".toList, "keymapper".toList, "keymapper".toList, "\\\\".toList, "--urgency=low".toList, "\\\\".toList] } := by
  decide +kernel

/-- **C87** A message which ends with a backslash is not shown at all: the command is incomplete. -/
theorem C87_backslash_counterexample (output : Str → Str) (m : Str) (h : ∀ c ∈ m, c ≠ '$' ∧ c ≠ '`' ∧ c ≠ '\\') :
    shell output (notificationCommand (m ++ ['\\'])) = none := by
  have hs : Showable m := by
    refine ⟨fun c hc => ⟨(h c hc).1, (h c hc).2.1⟩, ?_⟩
    intro a b e
    exact absurd rfl (h '\\' (by rw [e]; simp)).2.2
  unfold notificationCommand
  rw [List.append_assoc, command_start, escape_append, List.append_assoc, shell_showable _ rfl hs, escape_backslash]
  show shellGo output (.quoted _) _ ['\\', '\\', '\\', '"'] = none
  rw [quoted_escaped, if_pos (by decide), quoted_escaped, if_pos (by decide)]
  rfl

/-! ### the information about a key -/

private theorem command_scan {output : Str → Str} {acc t : Str} {r : ShellRun} (cmd : Str) (h : ∀ c ∈ cmd, c ∉ "()`\"'\\$#".toList) : ∀ pre : Str,
    shellGo output (.command acc pre ')') r (cmd ++ ')' :: t) =
      shellGo output (.quoted (acc ++ output (pre ++ cmd))) { r with executed := r.executed ++ [pre ++ cmd] } t := by
  induction cmd with
  | nil =>
    intro pre
    rw [List.nil_append, shellGo, if_pos rfl, List.append_nil]
  | cons c cmd ih =>
    intro pre
    have hc := h c (List.mem_cons_self ..)
    have h1 : c ≠ ')' := by intro e; subst e; exact hc (by decide)
    rw [List.cons_append, shellGo, if_neg h1, if_neg (by simpa using hc), ih (fun d hd => h d (List.mem_cons_of_mem _ hd))]
    simp

/-- Texts without characters which are special for the shell, in quotes -/
def PlainText (s : Str) : Prop := ∀ c ∈ s, c ≠ '$' ∧ c ≠ '`' ∧ c ≠ '\\'

private theorem PlainText.showable {s : Str} (h : PlainText s) : Showable s :=
  ⟨fun c hc => ⟨(h c hc).1, (h c hc).2.1⟩, fun a b e => absurd rfl (h '\\' (by rw [e]; simp)).2.2⟩

private theorem PlainText.append {a b : Str} (ha : PlainText a) (hb : PlainText b) : PlainText (a ++ b) := by
  intro c hc
  rcases List.mem_append.1 hc with hc | hc
  · exact ha c hc
  · exact hb c hc

private theorem plain_names : keyNameTable.all (fun p => p.2.toList.all (fun c => c != '$' && c != '`' && c != '\\')) = true := by decide +kernel

private theorem plain_name {k : Key} {n : Str} (h : getKeyName k = some n) : PlainText n := by
  unfold getKeyName at h
  obtain ⟨p, hp, rfl⟩ := Option.map_eq_some_iff.1 h
  have := List.all_eq_true.1 plain_names p (List.mem_of_find?_eq_some hp)
  intro c hc
  have := List.all_eq_true.1 this c hc
  simpa [and_assoc] using this

private theorem hexDigit_plain : ∀ d : Fin 16, hexDigitUpper d.1 ≠ '$' ∧ hexDigitUpper d.1 ≠ '`' ∧ hexDigitUpper d.1 ≠ '\\' := by decide

private theorem plain_hex4 (k : Nat) : PlainText (hex4 k) := by
  have h (n : Nat) := hexDigit_plain ⟨n % 16, Nat.mod_lt _ (by decide)⟩
  intro c hc
  simp only [hex4, List.mem_cons, List.not_mem_nil, or_false] at hc
  rcases hc with rfl | rfl | rfl | rfl
  · exact h _
  · exact h _
  · exact h _
  · exact h _

private theorem plain_of {s : Str} (h : s.all (fun c => c != '$' && c != '`' && c != '\\') = true) : PlainText s := by
  intro c hc
  have := List.all_eq_true.1 h c hc
  simpa [and_assoc] using this

private theorem plain_line {n v : Str} (hn : PlainText n) (hv : PlainText v) : PlainText (infoLine n v) :=
  ((hn.append (plain_of (by decide))).append hv).append (plain_of (by decide))

private theorem plain_opt {n v : Str} (hn : PlainText n) (hv : PlainText v) : ∀ l ∈ optLine n v, PlainText l := by
  intro l hl
  unfold optLine at hl
  split at hl
  · simp at hl
  · rw [List.mem_singleton] at hl; subst hl; exact plain_line hn hv

private theorem plain_flatMap {ls : List Str} (h : ∀ l ∈ ls, PlainText l) : PlainText (ls.flatMap (· ++ ['\n'])) := by
  intro c hc
  obtain ⟨l, hl, hc⟩ := List.mem_flatMap.1 hc
  exact (h l hl).append (plain_of (by decide)) c hc

private theorem text_shape {A B : List Str} {x y z : Str} :
    ∃ post, ((A ++ [x ++ y ++ z] ++ B).flatMap (· ++ ['\n'])).dropLast = A.flatMap (· ++ ['\n']) ++ x ++ y ++ post ∧
      ∀ c ∈ post, c ∈ z ++ ['\n'] ++ B.flatMap (· ++ ['\n']) := by
  refine ⟨(z ++ ['\n'] ++ B.flatMap (· ++ ['\n'])).dropLast, ?_, fun c hc => (List.dropLast_sublist _).subset hc⟩
  rw [← List.dropLast_append_of_ne_nil (by simp)]
  simp

private theorem shell_injected {output : Str → Str} {pre cmd post : Str} (h1 : PlainText pre) (h2 : PlainText post) (h : ∀ c ∈ cmd, c ∉ "()`\"'\\$#".toList) :
    ∃ run, shell output (notificationCommand (pre ++ ("$(".toList ++ cmd ++ [')']) ++ post)) = some run ∧ run.executed = [cmd] := by
  have hc : escapeMessage ("$(".toList ++ cmd ++ [')']) = "$(".toList ++ cmd ++ [')'] := by
    have e : escapeMessage cmd = cmd := by
      clear h1 h2
      induction cmd with
      | nil => rfl
      | cons c cmd ih =>
        have hc := h c (List.mem_cons_self ..)
        rw [escape_cons, escape_other (by intro e; subst e; exact hc (by decide)) (by intro e; subst e; exact hc (by decide)), ih (fun d hd => h d (List.mem_cons_of_mem _ hd))]
        rfl
    rw [escape_append, escape_append, e]
    rfl
  unfold notificationCommand
  rw [List.append_assoc, command_start, escape_append, escape_append, List.append_assoc, List.append_assoc, shell_showable _ rfl h1.showable, hc]
  show ∃ run, shellGo output (.quoted _) _ ('$' :: '(' :: (cmd ++ [')'] ++ (escapeMessage post ++ ['"']))) = some run ∧ _
  rw [shellGo]
  rw [show cmd ++ [')'] ++ (escapeMessage post ++ ['"']) = cmd ++ ')' :: (escapeMessage post ++ ['"']) by simp]
  rw [command_scan cmd h, shell_showable _ rfl h2.showable]
  exact ⟨_, rfl, rfl⟩

/-- **C87** Whatever a window is called is executed: when the title of the focused window is a command in `$(...)`, and the information about the next key is shown, because it was
requested in the menu, then the command is executed by the shell. -/
theorem C87_title_counterexample (output : Str → Str) (i : KeyInfo) (cmd : Str) (ht : i.window.title = "$(".toList ++ cmd ++ [')'])
    (h : ∀ c ∈ cmd, c ∉ "()`\"'\\$#".toList) (h1 : PlainText i.window.cls) (h2 : PlainText i.window.path) (h3 : PlainText i.device.name) (h4 : PlainText i.device.id)
    (hl : (keyInfoText i).length < 2048) :
    ∃ run, shell output (keyInfoCommand i) = some run ∧ run.executed = [cmd] := by
  have hb : messageBuffer (keyInfoText i) = keyInfoText i := by
    unfold messageBuffer
    exact List.take_of_length_le (by omega)
  unfold keyInfoCommand
  rw [hb]
  have hopt : optLine "title".toList i.window.title = ["title = '".toList ++ ("$(".toList ++ cmd ++ [')']) ++ "'".toList] := by
    rw [ht]
    rfl
  have htext : ∃ A B : List Str, keyInfoLines i = A ++ ["title = '".toList ++ ("$(".toList ++ cmd ++ [')']) ++ "'".toList] ++ B ∧
      (∀ l ∈ A, PlainText l) ∧ ∀ l ∈ B, PlainText l := by
    refine ⟨keyNameLine i.key ++ ["scan_code = 0x".toList ++ hex4 i.key, infoLine "system".toList "Linux".toList],
      optLine "class".toList i.window.cls ++ (optLine "path".toList i.window.path ++
      (optLine "device".toList i.device.name ++ optLine "device-id".toList i.device.id)), ?_, ?_, ?_⟩
    · rw [← hopt]
      simp only [keyInfoLines, List.append_assoc]
    · intro l hl
      rcases List.mem_append.1 hl with hl | hl
      · unfold keyNameLine at hl
        cases hk : getKeyName i.key with
        | none => rw [hk] at hl; simp at hl
        | some n =>
          rw [hk] at hl
          simp only [List.mem_singleton] at hl
          subst hl
          exact plain_line (plain_of (by decide)) (plain_name hk)
      · simp only [List.mem_cons, List.not_mem_nil, or_false] at hl
        rcases hl with rfl | rfl
        · exact (plain_of (by decide)).append (plain_hex4 _)
        · exact plain_line (plain_of (by decide)) (plain_of (by decide))
    · intro l hl
      simp only [List.mem_append] at hl
      rcases hl with hl | hl | hl | hl
      · exact plain_opt (plain_of (by decide)) h1 l hl
      · exact plain_opt (plain_of (by decide)) h2 l hl
      · exact plain_opt (plain_of (by decide)) h3 l hl
      · exact plain_opt (plain_of (by decide)) h4 l hl
  obtain ⟨A, B, e, hA, hB⟩ := htext
  obtain ⟨post, e2, hp⟩ := text_shape (A := A) (B := B) (x := "title = '".toList) (y := "$(".toList ++ cmd ++ [')']) (z := "'".toList)
  unfold keyInfoText
  rw [e, e2]
  refine shell_injected ((plain_flatMap hA).append (plain_of (by decide))) ?_ h
  intro c hc
  exact ((plain_of (s := "'".toList) (by decide)).append (plain_of (s := ['\n']) (by decide))).append (plain_flatMap hB) c (hp c hc)

/-- **C87** The same for the client: the command is executed when the server sends the information and no `keymapperctl` waits for it. -/
theorem C87_client_counterexample (output : Str → Str) (env : ClientEnv) (fs : FileSys) (filename : Str) (ops mid : List ClientOp) (k k' : Key) (d d' : DeviceDesc)
    (hmid : ∀ op ∈ mid, ∀ f u s, op ≠ .control f u s .nextKeyInfo) (cmd : Str) (w : Window)
    (hw : ((Client.start env fs filename).run env (ops ++ .server (.nextKeyInfo k d) :: mid)).window = w) (ht : w.title = "$(".toList ++ cmd ++ [')'])
    (h : ∀ c ∈ cmd, c ∉ "()`\"'\\$#".toList) (h1 : PlainText w.cls) (h2 : PlainText w.path) (h3 : PlainText d'.name) (h4 : PlainText d'.id)
    (hl : (keyInfoText ⟨k', w, d'⟩).length < 2048) :
    ∃ i run, shown ((Client.start env fs filename).run env (ops ++ .server (.nextKeyInfo k d) :: mid ++ [.server (.nextKeyInfo k' d')])).out =
        shown ((Client.start env fs filename).run env (ops ++ .server (.nextKeyInfo k d) :: mid)).out ++ [i] ∧
      shell output (keyInfoCommand i) = some run ∧ run.executed = [cmd] := by
  have hs := (C64_shown env fs filename ops mid k k' d d' hmid).2
  rw [hw] at hs
  obtain ⟨run, hr, he⟩ := C87_title_counterexample output ⟨k', w, d'⟩ cmd ht h h1 h2 h3 h4 hl
  exact ⟨_, run, hs, hr, he⟩

namespace NotificationExample

/-- A page in a browser -/
def info : KeyInfo := { key := 30, window := { cls := "firefox".toList, title := "$(touch /tmp/x)".toList }, device := { name := "Keyboard".toList, id := "usb-1".toList } }

example : keyInfoText info =
    "key_name = 'A'\nscan_code = 0x001E\nsystem = 'Linux'\ntitle = '$(touch /tmp/x)'\nclass = 'firefox'\ndevice = 'Keyboard'\ndevice-id = 'usb-1'".toList ∧
    (shell (fun _ => []) (keyInfoCommand info)).map (·.executed) = some ["touch /tmp/x".toList] := by decide +kernel

end NotificationExample

/-! ### using the information in the configuration -/

private theorem hexDigit_val : ∀ d : Fin 16, digitVal (hexDigitUpper d.1) = some d.1 := by decide

private theorem parse_hex4 (k : Nat) (h : k < 65536) : parseBase 16 (hex4 k) 0 = some k := by
  have hv (n : Nat) : digitVal (hexDigitUpper (n % 16)) = some (n % 16) := hexDigit_val ⟨n % 16, Nat.mod_lt _ (by decide)⟩
  have hm (n : Nat) : n % 16 < 16 := Nat.mod_lt _ (by decide)
  unfold hex4
  simp only [parseBase, hv, hm, if_true]
  congr 1
  omega

private theorem code_key (k : Nat) (h1 : 0 < k) (h2 : k < 0xF000) : getKeyByName ("0x".toList ++ hex4 k) = k := by
  have e : "0x".toList ++ hex4 k = '0' :: 'x' :: hex4 k := rfl
  have ht : tryParseKeyCode ('0' :: 'x' :: hex4 k) = k := by
    unfold tryParseKeyCode
    have h0 : isDigitC '0' = true := by decide
    have hemp : (hex4 k).isEmpty = false := rfl
    simp only [h0, if_true, beq_self_eq_true, Bool.true_or, hemp, Bool.false_eq_true, if_false, parse_hex4 k (by omega)]
    have : (decide (0 < k) && decide (k < 61440)) = true := by simp; omega
    rw [if_pos this]
  rw [e]
  unfold getKeyByName
  have hany : ('0' :: 'x' :: hex4 k == "Any".toList) = false := by
    have : "Any".toList = ['A', 'n', 'y'] := by decide
    rw [this, List.cons_beq_cons]; rfl
  rw [if_neg (by rw [hany]; simp)]
  simp only [ht]
  have : (k != Key.none) = true := by
    rw [bne_iff_ne]; intro h; have : k = 0 := h; omega
  rw [if_pos this]

private theorem opt_mem {n v l : Str} (h : l ∈ optLine n v) : l = infoLine n v := by
  unfold optLine at h
  split at h
  · simp at h
  · exact List.mem_singleton.1 h

private theorem line_names {n m v w : Str} (h : infoLine n v = infoLine m w) (hn : ' ' ∉ n) (hm : ' ' ∉ m) : n = m ∧ v = w := by
  unfold infoLine at h
  have key : ∀ (a b x y : Str), ' ' ∉ a → ' ' ∉ b → a ++ ' ' :: x = b ++ ' ' :: y → a = b ∧ x = y := by
    intro a
    induction a with
    | nil =>
      intro b x y _ hb e
      cases b with
      | nil => injection e with _ e; exact ⟨rfl, e⟩
      | cons c b => injection e with e _; exact absurd (by rw [e]; simp) hb
    | cons c a ih =>
      intro b x y ha hb e
      cases b with
      | nil => injection e with e _; exact absurd (by rw [e]; simp) ha
      | cons d b =>
        injection e with e1 e2
        obtain ⟨h1, h2⟩ := ih b x y (fun h => ha (List.mem_cons_of_mem _ h)) (fun h => hb (List.mem_cons_of_mem _ h)) e2
        exact ⟨by rw [e1, h1], h2⟩
  have e : n ++ ' ' :: ("= '".toList ++ v ++ "'".toList) = m ++ ' ' :: ("= '".toList ++ w ++ "'".toList) := by
    have h' := h
    simp only [List.append_assoc] at h' ⊢
    exact h'
  obtain ⟨h1, h2⟩ := key _ _ _ _ hn hm e
  refine ⟨h1, ?_⟩
  exact List.append_cancel_left (List.append_cancel_right h2)

/-- **C87** The code and the name of a key which are shown denote this key in the configuration. -/
theorem C87_key (i : KeyInfo) (h1 : 0 < i.key) (h2 : i.key < 0xF000) :
    (∃ code, "scan_code = ".toList ++ code ∈ keyInfoLines i ∧ getKeyByName code = i.key) ∧
    ∀ name, "key_name = '".toList ++ name ++ "'".toList ∈ keyInfoLines i → getKeyByName name = i.key := by
  constructor
  · refine ⟨"0x".toList ++ hex4 i.key, ?_, code_key _ h1 h2⟩
    unfold keyInfoLines
    simp only [List.mem_append, List.mem_cons]
    refine .inl (.inl (.inl (.inl (.inl (.inr (.inl ?_))))))
    rfl
  · intro name hn
    have hn : infoLine "key_name".toList name ∈ keyInfoLines i := hn
    have no (m v : Str) (hm : ' ' ∉ m) (hne : "key_name".toList ≠ m) : infoLine "key_name".toList name ≠ infoLine m v :=
      fun e => hne (line_names e (by decide) hm).1
    unfold keyInfoLines at hn
    simp only [List.mem_append, List.mem_cons, List.not_mem_nil, or_false] at hn
    rcases hn with (((((hn | hn | hn) | hn) | hn) | hn) | hn) | hn
    · unfold keyNameLine at hn
      cases hk : getKeyName i.key with
      | none => rw [hk] at hn; simp at hn
      | some n =>
        rw [hk] at hn
        rw [(line_names (List.mem_singleton.1 hn) (by decide) (by decide)).2]
        exact C39_name_round_trip _ _ hk
    · exact absurd hn (by intro e; injection e with e _; exact absurd e (by decide))
    · exact absurd hn (no _ _ (by decide) (by decide))
    · exact absurd (opt_mem hn) (no _ _ (by decide) (by decide))
    · exact absurd (opt_mem hn) (no _ _ (by decide) (by decide))
    · exact absurd (opt_mem hn) (no _ _ (by decide) (by decide))
    · exact absurd (opt_mem hn) (no _ _ (by decide) (by decide))
    · exact absurd (opt_mem hn) (no _ _ (by decide) (by decide))

/-- Texts which can be written between `'` and `'` in a context: they contain no `'` and do not look like a regular expression -/
def Quotable (v : Str) : Prop := '\'' ∉ v ∧ ¬ LooksLikeRegex v

private theorem attr_text {validRegex : Str → Bool} {getKey : Str → Key} {macros : Macros} {kind : FilterKind} {n v : Str} (hn : FilterName kind n) (hv : Quotable v) (hne : v ≠ []) :
    AttrText validRegex getKey macros (.filter kind v false false) (infoLine n v) := by
  have := AttrText.filter (validRegex := validRegex) (getKey := getKey) (macros := macros) (invert := false) (sp := [' ']) (sp' := [' ']) hn
    (.string (q := '\'') (by decide) hv.1 hne hv.2) (by intro c hc; simp at hc; subst hc; decide) (by intro c hc; simp at hc; subst hc; decide)
  have e : infoLine n v = n ++ [' '] ++ compareText false ++ [' '] ++ ('\'' :: v ++ ['\'']) := by
    simp [infoLine, compareText]
  rw [e]
  exact this

private theorem attrs_text {validRegex : Str → Bool} {getKey : Str → Key} {macros : Macros} : ∀ (as : List (Attr × Str)), as ≠ [] →
    (∀ p ∈ as, AttrText validRegex getKey macros p.1 p.2) → AttrsText validRegex getKey macros (as.map (·.1)) ([' '].intercalate (as.map (·.2))) := by
  intro as
  induction as with
  | nil => intro h; exact absurd rfl h
  | cons p as ih =>
    intro _ h
    cases as with
    | nil =>
      have := AttrsText.one (sp := []) (h p (List.mem_cons_self ..)) (by intro c hc; simp at hc)
      simpa [List.intercalate] using this
    | cons q as =>
      have := AttrsText.space (sp := [' ']) (h p (List.mem_cons_self ..)) (by intro c hc; simp at hc; subst hc; decide) (by simp)
        (ih (by simp) (fun x hx => h x (List.mem_cons_of_mem _ hx)))
      simpa [List.intercalate] using this

private theorem strContains_self (v : Str) : strContains v v = true := by
  cases v with
  | nil => rfl
  | cons c v => simp [strContains]

private theorem matches_self (rx : Regex) (v : Str) (b : Bool) : Filter.matches rx ⟨v, false, false⟩ v b = true := by
  unfold Filter.matches Filter.matchesUninverted
  cases b <;> simp [strContains_self]

/-- **C87** The lines about the window and the device, in brackets, are a context which is active for this window and this device. -/
theorem C87_context (env : CEnv) (d : Doc) (rx : Regex) (i : KeyInfo)
    (hq : ∀ v ∈ [i.window.title, i.window.cls, i.window.path, i.device.name, i.device.id], Quotable v) :
    ∃ attrs, Doc.Statement env d (.context attrs)
        ('[' :: [' '].intercalate ((keyInfoLines i).filter (fun l => !"key_name".toList.isPrefixOf l && !"scan_code".toList.isPrefixOf l)) ++ [']']) ∧
      ∀ b : Block, b.attrs = attrs → b.matchesSystem = true ∧ ∀ commands,
        (b.context commands).matches rx i.window.cls i.window.title i.window.path = true ∧
        (b.context commands).deviceFilter.matches rx i.device.name false = true ∧ (b.context commands).deviceIdFilter.matches rx i.device.id false = true := by
  obtain ⟨pairs, hp⟩ : ∃ pairs, pairs = [(FilterKind.windowTitle, "title".toList, i.window.title), (.windowClass, "class".toList, i.window.cls),
    (.windowPath, "path".toList, i.window.path), (.device, "device".toList, i.device.name), (.deviceId, "device-id".toList, i.device.id)] := ⟨_, rfl⟩
  obtain ⟨as, has⟩ : ∃ as : List (Attr × Str), as = (Attr.system "Linux".toList false, infoLine "system".toList "Linux".toList) ::
      (pairs.filter (fun p => !p.2.2.isEmpty)).map (fun p => (Attr.filter p.1 p.2.2 false false, infoLine p.2.1 p.2.2)) := ⟨_, rfl⟩
  have hlines : (keyInfoLines i).filter (fun l => !"key_name".toList.isPrefixOf l && !"scan_code".toList.isPrefixOf l) = as.map (·.2) := by
    obtain ⟨k, ⟨cls, title, path⟩, ⟨dn, di⟩⟩ := i
    rw [has, hp]
    simp only [keyInfoLines, keyNameLine]
    clear hq has hp
    cases getKeyName k <;> cases title <;> cases cls <;> cases path <;> cases dn <;> cases di <;> rfl
  have htext : ∀ p ∈ as, AttrText env.validRegex (namesWith d.logical) d.macros p.1 p.2 := by
    intro p h
    rw [has] at h
    rcases List.mem_cons.1 h with rfl | h
    · have := AttrText.system (validRegex := env.validRegex) (getKey := namesWith d.logical) (macros := d.macros) (q := '\'') (u := "Linux".toList) (invert := false) (sp := [' '])
        (sp' := [' ']) (by decide) (by decide) (by intro c hc; simp at hc; subst hc; decide) (by intro c hc; simp at hc; subst hc; decide)
      exact this
    · obtain ⟨x, hx, rfl⟩ := List.mem_map.1 h
      obtain ⟨hx1, hx2⟩ := List.mem_filter.1 hx
      have hne : x.2.2 ≠ [] := by simpa using hx2
      rw [hp] at hx1
      simp only [List.mem_cons, List.not_mem_nil, or_false] at hx1 hq
      rcases hx1 with rfl | rfl | rfl | rfl | rfl
      · exact attr_text .windowTitle (hq _ (by simp)) hne
      · exact attr_text .windowClass (hq _ (by simp)) hne
      · exact attr_text .windowPath (hq _ (by simp)) hne
      · exact attr_text .device (hq _ (by simp)) hne
      · exact attr_text .deviceId (hq _ (by simp)) hne
  refine ⟨as.map (·.1), ?_, ?_⟩
  · rw [hlines]
    exact .context (sp0 := []) (sp := []) (sp1 := []) (by intro c hc; simp at hc) (by intro c hc; simp at hc) (by intro c hc; simp at hc)
      (attrs_text as (by rw [has]; simp) htext)
  · intro b hb
    have h1 : (as.map (·.1)).foldl Attr.systemOr true = true := by
      rw [has, hp]
      generalize i.window.title = title
      generalize i.window.cls = cls
      generalize i.window.path = path
      generalize i.device.name = dn
      generalize i.device.id = di
      cases title <;> cases cls <;> cases path <;> cases dn <;> cases di <;> rfl
    have h2 : (as.map (·.1)).foldl Attr.set {} =
        ⟨⟨i.window.cls, false, false⟩, ⟨i.window.title, false, false⟩, ⟨i.window.path, false, false⟩, ⟨i.device.name, false, false⟩, ⟨i.device.id, false, false⟩, [], [], [], [],
          false, false, false, false⟩ := by
      rw [has, hp]
      generalize i.window.title = title
      generalize i.window.cls = cls
      generalize i.window.path = path
      generalize i.device.name = dn
      generalize i.device.id = di
      cases title <;> cases cls <;> cases path <;> cases dn <;> cases di <;> rfl
    refine ⟨?_, ?_⟩
    · unfold Block.matchesSystem
      rw [hb, h1]
    · intro commands
      unfold Block.context CContext.matches
      rw [hb, h2]
      simp only [matches_self, Bool.and_self, and_self]

open NotificationExample in
example : ∀ v ∈ [info.window.title, info.window.cls, info.window.path, info.device.name, info.device.id], Quotable v := by
  intro v hv
  have : ∀ v ∈ [info.window.title, info.window.cls, info.window.path, info.device.name, info.device.id], '\'' ∉ v ∧ v.head? ≠ some '/' := by decide +kernel
  obtain ⟨h1, h2⟩ := this v hv
  refine ⟨h1, ?_⟩
  rintro (⟨x, rfl⟩ | ⟨x, rfl⟩ | rfl) <;> simp at h2

end KM
