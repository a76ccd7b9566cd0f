import Verif.Spec.System

/-!
# Specification: what the services of the process send
-/

namespace PDJ.Spec

/-- The datagrams of portmapper and RPC handlers among the outputs, with their ports. -/
def rpcSent (o : List SysOut) : List (Option UInt16 × Bytes × Addr) :=
  o.filterMap fun x => match x with | .rpc b => some b | _ => none

/-- What the library service sends, on any connection, among the outputs. -/
def libSent (o : List SysOut) : List LibOut :=
  o.filterMap fun x => match x with | .lib b => some b | _ => none

end PDJ.Spec
