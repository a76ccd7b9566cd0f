import Verif.Model.System
import Verif.Spec.RpcServer

/-!
# NFS handlers are always at a path that is not empty
-/

namespace PDJ

open Spec

variable {F : Type}

/-- The handler is at a path. -/
def Somewhere : RpcTask F → Prop
  | .nfs (.running st _) => st.path ≠ []
  | _ => True

theorem pushPath_ne_nil (p n : Str) (h : p ≠ []) : pushPath p n ≠ [] := by
  unfold pushPath
  split
  · rename_i hn
    intro hc
    rw [hc] at hn
    exact nomatch hn
  · split <;> simp [h]

theorem call_somewhere (e : Endian) (w : World F) (p : RpcProcedure) (s s' : Nfs F) (r : Except NfsError RpcReplyMessage)
    (hs : s.path ≠ []) (h : s.callProcedure e w p = .ok (r, s')) : s'.path ≠ [] := by
  cases p with
  | nfsLookup a =>
    simp only [Nfs.callProcedure, Nfs.lookup] at h
    cases hst : w.stat (pushPath s.path a.filename) with
    | none =>
      simp only [hst, Outcome.ok.injEq, Prod.mk.injEq] at h
      rw [← h.2]
      exact List.cons_ne_nil _ _
    | some m =>
      simp only [hst] at h
      cases ho : w.openFile (pushPath s.path a.filename) with
      | none =>
        simp only [ho, Outcome.ok.injEq, Prod.mk.injEq] at h
        rw [← h.2]
        exact pushPath_ne_nil _ _ hs
      | some f =>
        simp only [ho] at h
        cases ha : attributesOf m with
        | panic => rw [ha] at h; exact nomatch h
        | ok attrs =>
          simp only [ha, Outcome.bind, Outcome.ok.injEq, Prod.mk.injEq] at h
          rw [← h.2]
          split
          · exact List.cons_ne_nil _ _
          · exact pushPath_ne_nil _ _ hs
  | nfsGetAttr a =>
    simp only [Nfs.callProcedure, Nfs.getattr] at h
    cases hi : a.fhandle.ino e with
    | panic => rw [hi] at h; exact nomatch h
    | ok i =>
      simp only [hi, Outcome.bind] at h
      split at h
      · simp only [Outcome.ok.injEq, Prod.mk.injEq] at h
        rw [← h.2]; exact hs
      · split at h
        · simp only [Outcome.ok.injEq, Prod.mk.injEq] at h
          rw [← h.2]; exact hs
        · split at h
          · simp only [Outcome.ok.injEq, Prod.mk.injEq] at h
            rw [← h.2]; exact hs
          · exact nomatch h
  | nfsRead a =>
    simp only [Nfs.callProcedure, Nfs.read] at h
    cases hi : a.fhandle.ino e with
    | panic => rw [hi] at h; exact nomatch h
    | ok i =>
      simp only [hi, Outcome.bind] at h
      split at h
      · simp only [Outcome.ok.injEq, Prod.mk.injEq] at h
        rw [← h.2]; exact hs
      · split at h
        · simp only [Outcome.ok.injEq, Prod.mk.injEq] at h
          rw [← h.2]; exact hs
        · split at h
          · simp only [Outcome.ok.injEq, Prod.mk.injEq] at h
            rw [← h.2]; exact hs
          · split at h
            · simp only [Outcome.ok.injEq, Prod.mk.injEq] at h
              rw [← h.2]; exact hs
            · exact nomatch h
  | _ =>
    simp only [Nfs.callProcedure, Outcome.ok.injEq, Prod.mk.injEq] at h
    rw [← h.2]; exact hs

theorem nfs_somewhere (e : Endian) (w : World F) (os : SendOs) (r : Recv) (t : NfsTask F)
    (h : Somewhere (.nfs t)) : Somewhere (.nfs (nfsStep e w os r t).2) := by
  cases t with
  | dead => exact trivial
  | running s pending =>
    simp only [nfsStep]
    split
    · exact h
    · split
      · exact h
      · exact h
      · exact trivial
      · rename_i q _
        cases hc : s.callProcedure e w q.call.procedure with
        | panic => exact trivial
        | ok x =>
          obtain ⟨r, s'⟩ := x
          have := call_somewhere e w _ s s' r h hc
          cases r <;> exact this

theorem task_somewhere (e : Endian) (net : Option PioneerNetwork) (ev : NfsEvent F) (t : RpcTask F)
    (h : Somewhere t) : Somewhere (taskStep e net ev t).2 := by
  cases t with
  | nfs t => exact nfs_somewhere e _ _ _ t h
  | program b => exact trivial

theorem deliver_somewhere (e : Endian) (net : Option PioneerNetwork) (p : UInt16) (ev : NfsEvent F)
    (ts : List (UInt16 × RpcTask F)) (h : ∀ t ∈ ts, Somewhere t.2) : ∀ t ∈ (deliver e net p ev ts).2, Somewhere t.2 := by
  induction ts with
  | nil => exact h
  | cons t ts ih =>
    simp only [deliver]
    split
    · intro t' ht'
      rcases List.mem_cons.1 ht' with rfl | ht'
      · exact task_somewhere e net ev t.2 (h t List.mem_cons_self)
      · exact h t' (List.mem_cons_of_mem _ ht')
    · intro t' ht'
      rcases List.mem_cons.1 ht' with rfl | ht'
      · exact h t' List.mem_cons_self
      · exact ih (fun t ht => h t (List.mem_cons_of_mem _ ht)) t' ht'

theorem portmap_somewhere (os : Bytes → Addr → Bool) (b : Option UInt16) (r : Recv) (s : RpcSystem F)
    (h : ∀ t ∈ s.tasks, Somewhere t.2) : ∀ t ∈ (portmapStep os b r s).2.tasks, Somewhere t.2 := by
  unfold portmapStep
  split
  · split
    · exact h
    · split
      · exact h
      · exact h
      · exact h
      · split
        · exact h
        · rename_i q _ _ port
          have hs : ∀ t ∈ (match spawned q.call.procedure with
              | some t => s.tasks ++ [(port, t)]
              | none => s.tasks), Somewhere t.2 := by
            split
            · rename_i t ht
              intro t' ht'
              rcases List.mem_append.1 ht' with ht' | ht'
              · exact h t' ht'
              · rw [List.mem_singleton] at ht'
                subst ht'
                unfold spawned at ht
                split at ht
                · split at ht
                  · cases ht
                    exact List.cons_ne_nil _ _
                  · cases ht
                    exact trivial
                · exact nomatch ht
            · exact h
          simp only
          split <;> exact hs
  · exact h

theorem sys_somewhere (e : Endian) (m : Mode) (db : Db) (xs : List (SysAction F)) (s : System F)
    (h : ∀ t ∈ s.services.rpc.tasks, Somewhere t.2) :
    ∀ t ∈ (sysRun e m db s xs).2.services.rpc.tasks, Somewhere t.2 := by
  induction xs generalizing s with
  | nil => exact h
  | cons x xs ih =>
    refine ih _ ?_
    simp only [sysStep]
    split
    · cases x with
      | portmap os b r => exact portmap_somewhere os b r s.services.rpc h
      | port p ev => exact deliver_somewhere e _ p ev _ h
      | accept c => simp only; split <;> exact h
      | main c b => simp only; split <;> exact h
      | _ => exact h
    · exact h

theorem listener_somewhere {p : UInt16} {ts : List (UInt16 × RpcTask F)} {t : RpcTask F}
    (h : ∀ t ∈ ts, Somewhere t.2) (hl : listener p ts = some t) : Somewhere t := by
  induction ts with
  | nil => exact nomatch hl
  | cons x ts ih =>
    simp only [listener] at hl
    split at hl
    · cases hl
      exact h x List.mem_cons_self
    · exact ih (fun t ht => h t (List.mem_cons_of_mem _ ht)) hl

end PDJ
