import Verif.Spec.Explained

/-!
# Specification: what ends a file handler
-/

namespace PDJ.Spec

variable {F : Type}

/-- A datagram that is fatal to a handler that is at `path` and has the `files` open: an RPC reply, or a
call that would be answered with the attributes of a file without one of its time stamps. -/
inductive Fatal (w : World F) (path : Str) (files : UInt64 → Option F) (d : Bytes) : Prop
  | reply (h : IsReply d)
  | lookup {xid fh name full m f} (hc : IsCall d xid (.nfsLookup fh name)) (hr : Resolves path name full)
      (hs : w.stat full = some m) (ho : w.openFile full = some f) (hm : ¬ Dated m)
  | getattr {xid fh i f m} (hc : IsCall d xid (.nfsGetattr fh)) (hh : HandleFor fh i)
      (hf : files i = some f) (hs : w.fstat f = some m) (hm : ¬ Dated m)
  | read {xid fh i f o c t b m} (hc : IsCall d xid (.nfsRead fh o c t)) (hh : HandleFor fh i)
      (hf : files i = some f) (hb : w.pread f o.toNat c.toNat = some b) (hs : w.fstat f = some m)
      (hm : ¬ Dated m)

end PDJ.Spec
