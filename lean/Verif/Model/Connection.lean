import Verif.Model.ServerLoop
/-!
# The server: a connection of the client

Models `connection_loop` of `src/server/unix/main.cpp`.
-/
namespace KM

/-- `unix/main.cpp:192-212`: what happens after a client connected: the messages up to the configuration are read (`first`), the
devices are grabbed, then the loop runs. Creating and grabbing the devices succeeds, and the configuration is among the first
messages. Not included: the reset of the configuration at the end. -/
def Srv.connection (rx : Regex) (s : Srv) (first : List Msg) (devices : List DeviceDesc) (its : List Iteration) : Srv :=
  ((first.foldl (Srv.onMessage rx) s).setDeviceDescs rx devices).mainLoop rx its

end KM
