import Verif.Spec.Match
import Verif.Spec.Remap
/-!
# Specification: replacing what is typed

What a configuration does whose mappings all replace keys which are typed one after the other, or which are
pressed together: `B T W >> 'by the way'`, `A >> B`, `(J K) >> Escape`. The user types such words and chords, and keys
which no mapping mentions. They may also begin words and chords without completing them.
-/
namespace KM

/-- the keys which are held after some events (the last pressed first), `held` are the ones before -/
def keysDown : (held : List Key) → KeySequence → List Key
  | held, [] => held
  | held, e :: s => keysDown (if e.state = .Down then e.key :: held else held.filter (· ≠ e.key)) s

/-- What a mapping replaces: keys typed one after the other (`A B C`), or keys pressed together (`(A B C)`). -/
inductive Pattern where
  | word (ks : List Key)
  | chord (ks : List Key)

/-- its keys, in the order of the configuration -/
def Pattern.keys : Pattern → List Key
  | .word ks => ks
  | .chord ks => ks

/-- its input expression -/
def Pattern.expr : Pattern → KeySequence
  | .word ks => typingExpr ks
  | .chord ks => chordExpr ks

/-- there are keys, of devices, and a chord has each only once -/
def Pattern.Proper (p : Pattern) : Prop :=
  p.keys ≠ [] ∧ (∀ k ∈ p.keys, isDeviceKey k = true) ∧ ∀ ks, p = .chord ks → ks.Nodup

/-- The events are the ones of typing the pattern: the keys of a word are pressed in order, and released at any time. The
keys of a chord are pressed in any order, and none is released before all are pressed. -/
def Pattern.CompletedBy : Pattern → KeySequence → Prop
  | .word ks, evs => presses evs = ks
  | .chord ks, evs => ∃ order : List Key, order.Perm ks ∧ evs = order.map (fun k => ⟨k, .Down, 0⟩)

/-- The events are a beginning of the ones of typing the pattern, without completing it. -/
def Pattern.Begun : Pattern → KeySequence → Prop
  | .word ks, evs => presses evs <+: ks ∧ presses evs ≠ ks
  | .chord ks, evs => ∃ order : List Key, order.Nodup ∧ (∀ k ∈ order, k ∈ ks) ∧ (∃ k ∈ ks, k ∉ order) ∧
      evs = order.map (fun k => ⟨k, .Down, 0⟩)

/-- The pattern is not begun by pressing some of the keys and then releasing one of them: a word has to begin with another key, and a
chord needs one which is not among them. -/
def Pattern.NeedsOther : Pattern → List Key → Prop
  | .word ks, l => ∀ k ∈ ks.head?, k ∉ l
  | .chord ks, l => ∃ k ∈ ks, k ∉ l

/-- Typing one of the patterns does not begin with typing the other one: no word begins with the other one, no chord is
contained in the other one, and a word does not begin with the keys of a chord, in whatever order, nor has it only keys of it. -/
def Pattern.Apart : Pattern → Pattern → Prop
  | .word a, .word b => ¬ a <+: b ∧ ¬ b <+: a
  | .word a, .chord g => (∃ k ∈ a, k ∉ g) ∧ ∃ k ∈ g, k ∉ a.take g.length
  | .chord g, .word a => (∃ k ∈ a, k ∉ g) ∧ ∃ k ∈ g, k ∉ a.take g.length
  | .chord g, .chord h => (∃ k ∈ g, k ∉ h) ∧ ∃ k ∈ h, k ∉ g

/-- A context without filters, all mappings of which are for keys typed one after the other or pressed together. -/
structure Context.OnlyWords (ctx : Context) : Prop where
  inputs : ∀ m ∈ ctx.inputs, ∃ p : Pattern, p.Proper ∧ m.input = p.expr
  noModifiers : ctx.modifierFilter = [] ∧ ctx.invertModifierFilter = false
  noDevices : ctx.hasDeviceFilter = false ∧ ctx.matchingDeviceBits = BitVec.allOnes 64
  stops : ctx.fallthrough = false

/-- a key of a device which no mapping mentions -/
def Unmentioned (contexts : List Context) (k : Key) : Prop :=
  isDeviceKey k = true ∧ ∀ ctx ∈ contexts, ∀ m ∈ ctx.inputs, ∀ e ∈ m.input, e.key ≠ k

/-- The pattern is replaced by `out`, when the contexts `current` are active: there is a mapping for it, and typing it does not
begin with typing the pattern of a mapping in front of it, and the other way round (the mappings in front of it are the ones of the
contexts in front of its context, and the ones in front of it in its context). -/
def ReplacedBy (contexts : List Context) (current : List Nat) (p : Pattern) (out : KeySequence) : Prop :=
  ∃ pre i post ctx before m after,
    current = pre ++ i :: post ∧ contexts[i]? = some ctx ∧ ctx.inputs = before ++ m :: after ∧
    m.input = p.expr ∧ mappingOutput contexts current ctx m = some out ∧
    (∀ j ∈ pre, ∀ ctx', contexts[j]? = some ctx' → ∀ m' ∈ ctx'.inputs, ∀ p' : Pattern, p'.Proper → m'.input = p'.expr → p'.Apart p) ∧
    (∀ m' ∈ before, ∀ p' : Pattern, p'.Proper → m'.input = p'.expr → p'.Apart p)

/-- How a pattern is typed: `evs` are the events until its last key is pressed (by the last of them), `rels` the ones afterwards. -/
structure TypesPattern (p : Pattern) (evs rels : KeySequence) : Prop where
  typed : Typed [] (evs ++ rels)
  completed : p.CompletedBy evs
  last : (evs.getLast?).map (·.state) = some .Down
  releases : ∀ e ∈ rels, e.state = .Up
  zero : ∀ e ∈ evs ++ rels, e.state = .Up → e.value = 0
  complete : keysDown [] (evs ++ rels) = []

/-- an event and the number of the device, as an operation -/
def typeOn (p : KeyEvent × Int) : StageOp := .input p.1 p.2

/-- a valid number of a device (or -1 for a virtual one, -2 for any) -/
def ValidDevice (dev : Int) : Prop := -2 ≤ dev ∧ dev < 64

/-- what is output for each of the operations -/
def stageOutputs (st : Cfg × S) : List StageOp → List KeySequence
  | [] => []
  | op :: ops => (stageStep st op).2 :: stageOutputs (stageStep st op).1 ops

/-- What is output for each operation of a history, when the keys `held` are held (which are passed through) and the
contexts `current` are active. No word or chord is begun while a key of a mapping is still held. -/
inductive TypingSession (cs : List Context) : (held : List Key) → (current : List Nat) → List StageOp → List KeySequence → Prop
  | done {held current} : TypingSession cs held current [] []
  /-- other contexts get active -/
  | contexts {held current l ops out} : l.Pairwise (· < ·) → (∀ i ∈ l, i < cs.length) →
      TypingSession cs held l ops out → TypingSession cs held current (.contexts l :: ops) ([] :: out)
  /-- other devices are attached -/
  | devices {held current rx ds ops out} :
      TypingSession cs held current ops out → TypingSession cs held current (.devices rx ds :: ops) ([] :: out)
  /-- a key which no mapping mentions is pressed: it is output -/
  | press {held current k v dev ops out} : Unmentioned cs k → k ∉ held →
      TypingSession cs (k :: held) current ops out →
      TypingSession cs held current (.input ⟨k, .Down, v⟩ dev :: ops) ([⟨k, .Down, v⟩] :: out)
  /-- it is released -/
  | release {held current k dev ops out} : k ∈ held →
      TypingSession cs (held.filter (· ≠ k)) current ops out →
      TypingSession cs held current (.input ⟨k, .Up, 0⟩ dev :: ops) ([⟨k, .Up, 0⟩] :: out)
  /-- A word or chord is typed: nothing is output before its last key is pressed (by the event `e`), then its replacement is. What
  it leaves pressed is released together with the key which is the last one in the configuration. -/
  | typed {held current p replacement evs e dev rels ops out} : (∀ x ∈ held, Unmentioned cs x) → ReplacedBy cs current p replacement →
      Typed [] replacement → (∀ x ∈ replacement, x.key ∉ held) →
      TypesPattern p (evs.map Prod.fst ++ [e]) (rels.map Prod.fst) → (∀ q ∈ evs ++ (e, dev) :: rels, ValidDevice q.2) →
      TypingSession cs held current ops out →
      TypingSession cs held current (evs.map typeOn ++ typeOn (e, dev) :: (rels.map typeOn ++ ops))
        (evs.map (fun _ => []) ++ replacement ::
          (rels.map (fun q => if some q.1.key = p.keys.getLast? then (keysDown [] replacement).map (fun k => ⟨k, .Up, 0⟩) else []) ++ out))
  /-- A word or chord is begun, and then a key is pressed which no mapping mentions. No mapping has all its keys among the ones which
  were pressed. Then everything is output, in the order in which it was typed. -/
  | abandoned {held current} {p : Pattern} {replacement} {evs : List (KeyEvent × Int)} {k v dev ops out} : (∀ x ∈ held, Unmentioned cs x) → ReplacedBy cs current p replacement →
      Typed [] (evs.map Prod.fst) → p.Begun (evs.map Prod.fst) → (∀ q ∈ evs, ValidDevice q.2 ∧ (q.1.state = .Up → q.1.value = 0)) →
      (∀ i ∈ current, ∀ ctx, cs[i]? = some ctx → ∀ m ∈ ctx.inputs, ∃ e ∈ m.input, e.key ∉ presses (evs.map Prod.fst)) →
      Unmentioned cs k → k ∉ held →
      TypingSession cs (k :: (keysDown [] (evs.map Prod.fst) ++ held)) current ops out →
      TypingSession cs held current (evs.map typeOn ++ typeOn (⟨k, .Down, v⟩, dev) :: ops)
        (evs.map (fun _ => []) ++ (evs.map Prod.fst ++ [⟨k, .Down, v⟩]) :: out)
  /-- Some keys of a chord are pressed, and then one of them is released, which does not begin something else: they are output as they
  were typed. -/
  | released {held current ks replacement} {evs : List (KeyEvent × Int)} {k dev ops out} : (∀ x ∈ held, Unmentioned cs x) →
      ReplacedBy cs current (.chord ks) replacement → (Pattern.chord ks).Begun (evs.map Prod.fst) → (∀ q ∈ evs, ValidDevice q.2) →
      k ∈ presses (evs.map Prod.fst) →
      (∀ i ∈ current, ∀ ctx, cs[i]? = some ctx → ∀ m ∈ ctx.inputs, ∀ p : Pattern, p.Proper → m.input = p.expr →
        p.NeedsOther (presses (evs.map Prod.fst))) →
      TypingSession cs (keysDown [] (evs.map Prod.fst ++ [⟨k, .Up, 0⟩]) ++ held) current ops out →
      TypingSession cs held current (evs.map typeOn ++ typeOn (⟨k, .Up, 0⟩, dev) :: ops)
        (evs.map (fun _ => []) ++ (evs.map Prod.fst ++ [⟨k, .Up, 0⟩]) :: out)

end KM
