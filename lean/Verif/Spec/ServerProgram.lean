import Verif.Model.ServerProgram
/-!
# What can be observed of the server program
-/
namespace KM

/-- What an observer knows: whether the virtual keyboard exists, how the devices are grabbed (with the mice, with which filters), and
the configuration last received since the devices were let go -/
structure DaemonView where
  keyboard : Bool := false
  grab : Option (Bool × List GrabDeviceFilter) := none
  config : Option (List GrabDeviceFilter × List Cfg) := none

/-- The observer sees something -/
def DaemonView.see (v : DaemonView) : DaemonEff → DaemonView
  | .received filters cfgs => { v with config := some (filters, cfgs) }
  | .keyboard => { v with keyboard := true }
  | .grab mice filters => { v with grab := some (mice, filters) }
  | .letGo => {}

/-- What the observer knows after everything was seen -/
def observed (log : List DaemonEff) : DaemonView := log.foldl DaemonView.see {}

/-- The devices are grabbed as the configuration demands: the mice when it maps mouse buttons or wheels; the filters are the same
(whether they are regular expressions follows from the strings) -/
def GrabbedAs (v : DaemonView) : Prop :=
  ∃ mice fs gs cfgs, v.grab = some (mice, fs) ∧ v.config = some (gs, cfgs) ∧ mice = cfgs.any (fun c => c.hasMouseMappings) ∧
    fs.map (fun f => (f.string, f.invert, f.byId)) = gs.map (fun f => (f.string, f.invert, f.byId))

/-- A client: when reading from it fails then there were no messages (its messages are well-formed), and its configurations are not
empty. -/
def DaemonMsg.Proper : DaemonMsg → Prop
  | .configuration _ cfgs => cfgs ≠ []
  | .other m => ∀ cfgs, m ≠ .configuration cfgs

/-- see `DaemonMsg.Proper` -/
structure DaemonSession.Proper (x : DaemonSession) : Prop where
  batches : ∀ b ∈ x.batches, (b.alive = false → b.messages = []) ∧ ∀ m ∈ b.messages, m.Proper
  passes : ∀ p ∈ x.passes, ∀ m ∈ p.messages, m.Proper

/-- What a pass of the loop is for the server state -/
def DaemonPass.iteration (p : DaemonPass) : Iteration :=
  { now := p.now, read := p.read, sendResults := p.sendResults, devices := p.devices, messages := p.messages.map DaemonMsg.msg }

/-- A signal to end arrives while a client is served -/
def DaemonSession.Signalled (x : DaemonSession) : Prop := x.lateSignal = true ∨ ∃ p ∈ x.passes, p.signal = true

/-- A configuration -/
def DaemonMsg.isConfiguration : DaemonMsg → Bool
  | .configuration _ _ => true
  | .other _ => false

/-- A client which sends one configuration to begin with, and the messages of which are well-formed -/
structure DaemonSession.Plain (x : DaemonSession) : Prop where
  batches : ∀ b ∈ x.batches, (b.messages.filter DaemonMsg.isConfiguration).length ≤ 1
  passes : ∀ p ∈ x.passes, p.alive = false → p.messages = []

end KM
