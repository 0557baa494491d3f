import Verif.Spec.Document
import Mathlib.Data.List.Forall2
/-!
# Specification: keys which are one of two keys, and forwarded modifiers

`Shift` is the left or the right key. A mapping with it stands for a mapping for each of the two keys, in the place of the original one.
-/
namespace KM

/-- A context: the filters, the mappings in the order in which they are tried, and the outputs of commands -/
structure Group where
  /-- the filters -/
  header : CContext := {}
  mappings : List (KeySequence × Aim) := []
  commandOutputs : List (Str × KeySequence) := []
deriving DecidableEq, Repr

/-- the context of a block -/
def Block.group (b : Block) : Group where
  header := { b.attrs.foldl Attr.set {} with
    systemFilterMatched := b.matchesSystem
    fallthrough := b.fallsThrough
    beginStage := b.stage }
  mappings := b.mappings
  commandOutputs := b.commandOutputs

/-! ### forwarded modifiers -/

/-- In every stage the forwarded modifiers are mapped to themselves first. -/
def Block.forward (ks : List Key) (b : Block) : Block :=
  if b.stage then { b with
    mappings := ks.map (fun k => ([⟨k, .Down, 0⟩, ⟨k, .UpAsync, 0⟩], .keys [⟨k, .Down, 0⟩])) ++ b.mappings }
  else b

/-! ### keys which are one of two keys -/

/-- one of the two keys -/
def withKey (both k : Key) (s : KeySequence) : KeySequence := s.map (fun e => if e.key = both then { e with key := k } else e)

/-- not one of the keys: none of them -/
def noneOfKeys (l : LogicalKey) (s : KeySequence) : KeySequence :=
  s.flatMap (fun e => if e.state = .Not ∧ e.key = l.both then [⟨l.left, .Not, 0⟩, ⟨l.right, .Not, e.value⟩] else [e])

/-- replace in the output -/
def Aim.map (f : KeySequence → KeySequence) : Aim → Aim
  | .keys o => .keys (f o)
  | .command name => .command name

/-- the alternatives of a mapping: the same key is used in the output; when the key is in the output only, it is the left one -/
def alternatives (l : LogicalKey) (m : KeySequence × Aim) : List (KeySequence × Aim) :=
  if ∃ e ∈ m.1, e.key = l.both then
    [(withKey l.both l.left m.1, m.2.map (withKey l.both l.left)), (withKey l.both l.right m.1, m.2.map (withKey l.both l.right))]
  else [(m.1, m.2.map (withKey l.both l.left))]

instance (l : LogicalKey) (m : KeySequence × Aim) : Decidable (∃ e ∈ m.1, e.key = l.both) :=
  decidable_of_iff (m.1.any (fun e => e.key = l.both) = true) (by simp)

/-- replace `!Shift` -/
def Group.noneOf (l : LogicalKey) (g : Group) : Group where
  header := { g.header with modifierFilter := noneOfKeys l g.header.modifierFilter }
  mappings := g.mappings.map (fun m => (noneOfKeys l m.1, m.2.map (noneOfKeys l)))
  commandOutputs := g.commandOutputs.map (fun c => (c.1, noneOfKeys l c.2))

/-- replace the key in the mappings -/
def Group.mapAlternatives (l : LogicalKey) (g : Group) : Group where
  header := g.header
  mappings := g.mappings.flatMap (alternatives l)
  commandOutputs := g.commandOutputs.map (fun c => (c.1, withKey l.both l.left c.2))

/-- replace the key in the filter: the context for the left key falls through to the one for the right key -/
def Group.filterAlternatives (l : LogicalKey) (g : Group) : List Group :=
  if g.header.modifierFilter.any (fun e => e.key = l.both) then
    [{ header := { g.header with modifierFilter := withKey l.both l.left g.header.modifierFilter, fallthrough := true } },
     { g with header := { g.header with modifierFilter := withKey l.both l.right g.header.modifierFilter } }]
  else [g]

/-- **What a key which is one of two keys means** -/
def Group.expand (l : LogicalKey) (g : Group) : List Group := ((g.noneOf l).mapAlternatives l).filterAlternatives l

/-- **The contexts of a configuration.** Keys defined later may stand for keys defined before. -/
def Doc.groups (d : Doc) : List Group :=
  d.logical.reverse.foldl (fun gs l => gs.flatMap (Group.expand l))
    (match remainingBlocks true [] ((d.blocks ++ [d.current]).map (Block.forward d.forward)) with
      | [] => [{}]
      | bs => bs.map Block.group)

/-! ### what a context of the configuration does -/

/-- the output with this number -/
def aimOf (commands : List Str) (outputs : List KeySequence) (index : Int) : Option Aim :=
  if 0 ≤ index then outputs[index.toNat]?.map .keys else commands[(-index - 1).toNat]?.map .command

/-- **the context has these filters, mappings and outputs of commands** -/
structure Means (commands : List Str) (c : CContext) (g : Group) : Prop where
  header : { c with inputs := [], outputs := [], commandOutputs := [] } = g.header
  mappings : c.inputs.map (fun i => (i.input, aimOf commands c.outputs i.outputIndex)) = g.mappings.map (fun m => (m.1, some m.2))
  commandOutputs : c.commandOutputs = g.commandOutputs.map (fun o => ⟨o.2, commandNumber commands o.1⟩)

/-! ### suppressing forwarded modifiers -/

/-- is the key released, when it is not to be pressed -/
def Handled (k : Key) (o : KeySequence) : Prop := ⟨k, .Down, 0⟩ ∈ o ∨ ⟨k, .Not, 0⟩ ∈ o

/-- some forwarded modifiers are released first -/
def Releases (ks : List Key) (o o' : KeySequence) : Prop := ∃ ns : List Key, (∀ k ∈ ns, k ∈ ks) ∧ o' = ns.map (fun k => ⟨k, .Not, 0⟩) ++ o

/-- outputs of a mapping, which release the forwarded modifiers of its input -/
inductive AimReleases (ks : List Key) (input : KeySequence) : Aim → Aim → Prop
  | keys {o o'} (h : Releases ks o o') (hk : ∀ k ∈ ks, ⟨k, .Down, 0⟩ ∈ input → Handled k o') : AimReleases ks input (.keys o) (.keys o')
  | command {name} : AimReleases ks input (.command name) (.command name)

/-- the contexts differ in released modifiers -/
structure GroupReleases (ks : List Key) (g g' : Group) : Prop where
  header : g'.header = g.header
  mappings : List.Forall₂ (fun m m' => m'.1 = m.1 ∧ AimReleases ks m.1 m.2 m'.2) g.mappings g'.mappings
  commandOutputs : List.Forall₂ (fun c c' => c'.1 = c.1 ∧ Releases ks c.2 c'.2) g.commandOutputs g'.commandOutputs

/-- **The outputs of mappings release the forwarded modifiers which are in the input**, so do the outputs of commands. -/
structure Suppressed (ks : List Key) (gs gs' : List Group) : Prop where
  groups : List.Forall₂ (GroupReleases ks) gs gs'
  commands : ∀ k ∈ ks, ∀ g ∈ gs', ∀ m ∈ g.mappings, ∀ name, m.2 = .command name → ⟨k, .Down, 0⟩ ∈ m.1 →
    ∀ g' ∈ gs', ∀ c ∈ g'.commandOutputs, c.1 = name → Handled k c.2

end KM
