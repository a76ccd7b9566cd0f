import Verif.Spec.Explained
import Verif.Props.Nfs

/-!
# Property C99: the file service sends nothing but answers
-/

namespace PDJ

open Spec

variable {F : Type}

theorem lookedUp_mono {evs : List (NfsEvent F)} {name : Str} (h : LookedUp evs name) (more : List (NfsEvent F)) :
    LookedUp (evs ++ more) name := by
  obtain ⟨ev, he, h⟩ := h
  exact ⟨ev, List.mem_append_left _ he, h⟩

theorem named_mono {evs : List (NfsEvent F)} {p : Str} (h : Named evs p) (more : List (NfsEvent F)) :
    Named (evs ++ more) p := by
  induction h with
  | root => exact .root
  | name _ hl hr ih => exact .name ih (lookedUp_mono hl more) hr

theorem named_ne_nil {evs : List (NfsEvent F)} {p : Str} (h : Named evs p) : p ≠ [] := by
  cases h with
  | root => simp
  | name _ _ hr => cases hr <;> simp

theorem opened_mono {evs : List (NfsEvent F)} {fh : Bytes} {f : F} (h : Opened evs fh f)
    (more : List (NfsEvent F)) : Opened (evs ++ more) fh f := by
  obtain ⟨before, ev, after, path, m, rfl, h⟩ := h
  exact ⟨before, ev, after ++ more, path, m, by simp, h⟩

/-- Answers may be lost. -/
theorem accounted_sublist {before evs : List (NfsEvent F)} {xs ys : List (Bytes × Addr)}
    (h : Accounted before evs xs) (hs : ys.Sublist xs) : Accounted before evs ys := by
  induction h generalizing ys with
  | nil =>
    cases List.sublist_nil.1 hs
    exact .nil
  | unanswered _ ih => exact .unanswered (ih hs)
  | answered hr ha _ ih =>
    cases hs with
    | cons _ hs => exact .unanswered (ih hs)
    | cons_cons _ hs => exact .answered hr ha (ih hs)

theorem resolves_push (dir name : Str) (h : dir ≠ []) : Resolves dir name (pushPath dir name) := by
  unfold pushPath
  by_cases ha : name.head? = some '/'
  · rw [if_pos ha]
    cases name with
    | nil => exact nomatch ha
    | cons c r =>
      cases ha
      exact .absolute dir r
  · rw [if_neg ha]
    obtain ⟨l, c, rfl⟩ : ∃ l c, dir = l ++ [c] := ⟨_, _, (List.dropLast_concat_getLast h).symm⟩
    by_cases hc : c = '/'
    · subst hc
      rw [if_neg (by simp)]
      have := Resolves.below l name ha
      simpa using this
    · rw [if_pos (by simp [hc])]
      have := Resolves.inside l c name hc ha
      simpa using this

theorem handleFor_of_ino {fh : Bytes} {i : UInt64} (hl : fh.length = 32)
    (h : FileHandle.ino .little ⟨fh⟩ = .ok i) : HandleFor fh i := by
  refine ⟨hl, ?_⟩
  match fh, hl with
  | b0 :: b1 :: b2 :: b3 :: b4 :: b5 :: b6 :: b7 :: r, _ =>
    have h : Outcome.ok (ofBe64 b7 b6 b5 b4 b3 b2 b1 b0) = .ok i := h
    injection h with h
    have := (C74_u64 i (be64 i)).1.1 rfl
    rw [← this.2, ← h, be64_ofBe64]
    rfl

/-- The answer that waits in the write buffer. -/
def NfsTask.waiting : NfsTask F → Option (Bytes × Addr)
  | .running _ p => p
  | .dead => none

/-- What the handler knows is accounted for. -/
structure Known (evs : List (NfsEvent F)) (s : Nfs F) : Prop where
  path : Named evs s.path
  files : ∀ fh i f, fh.length = 32 → FileHandle.ino .little ⟨fh⟩ = .ok i → s.handlers i = some f →
    Opened evs fh f

theorem known_mono {evs : List (NfsEvent F)} {s : Nfs F} (h : Known evs s) (more : List (NfsEvent F)) :
    Known (evs ++ more) s :=
  ⟨named_mono h.path more, fun fh i f h1 h2 h3 => opened_mono (h.files fh i f h1 h2 h3) more⟩

/-- What is sent and what waits afterwards: in order, what waited before and what was to be sent. -/
theorem udpSend_order (os : SendOs) (pending : Option (Bytes × Addr)) (b : Bytes) (peer : Addr) :
    ((udpSend os pending b peer).2.1 ++ (udpSend os pending b peer).2.2.toList).Sublist
      (pending.toList ++ [(b, peer)]) := by
  cases pending with
  | none =>
    simp only [udpSend]
    cases os false b peer <;> simp
  | some p =>
    simp only [udpSend]
    cases os true p.1 p.2
    · simp
    · cases os false b peer <;> simp

theorem dated_of_attributes {m : Meta} {a : NfsFileAttributes} (h : attributesOf m = .ok a) :
    fattrWords a = fattr m := by
  have hd : Dated m := Classical.byContradiction fun hn => by
    rw [attributesOf_undated m hn] at h
    exact nomatch h
  obtain ⟨a', h1, h2⟩ := attributesOf_dated m hd
  rw [h] at h1
  cases h1
  exact h2

/-- The answer to a call is one that may be given, and the handler knows nothing else afterwards. -/
theorem known_call (before : List (NfsEvent F)) (ev : NfsEvent F) (s : Nfs F)
    (h : Known before s) {d : Bytes} {peer : Addr} (hr : ev.recv = .datagram d peer)
    {q : RpcRequest} (hf : rpcFrame d = .request q) {r : Except NfsError RpcReplyMessage} {s' : Nfs F}
    (hc : s.callProcedure .little ev.world q.call.procedure = .ok (r, s')) :
    Known (before ++ [ev]) s' ∧
      ∀ reply, r = .ok reply → MayAnswer before ev d (rpcDatagram (successReply q.xid reply)) := by
  obtain ⟨p, hcall, hm⟩ := request_isCall hf
  have hk := known_mono h [ev]
  generalize q.call.program = prog at hm
  generalize q.call.procedure = proc at hm hc
  have other : s.callProcedure .little ev.world proc = .ok (.error .notImplemented, s) →
      Known (before ++ [ev]) s' ∧
        ∀ reply, r = .ok reply → MayAnswer before ev d (rpcDatagram (successReply q.xid reply)) := by
    intro e
    rw [e] at hc
    cases hc
    exact ⟨hk, fun _ h => nomatch h⟩
  cases hm with
  | lookup fh name h1 =>
    have hp : Named (before ++ [ev]) (pushPath s.path name) :=
      .name hk.path ⟨ev, List.mem_append_right _ (List.mem_singleton.2 rfl), d, peer, q.xid, fh, hr, hcall⟩
        (resolves_push _ _ (named_ne_nil hk.path))
    have hc : s.lookup ev.world ⟨name, ⟨fh⟩⟩ = .ok (r, s') := hc
    cases hst : ev.world.stat (pushPath s.path name) with
    | none =>
      rw [lookup_missing _ _ _ hst] at hc
      cases hc
      exact ⟨⟨.root, hk.files⟩, fun _ h => nomatch h⟩
    | some m =>
      cases ho : ev.world.openFile (pushPath s.path name) with
      | none =>
        rw [lookup_unopenable _ _ _ m hst ho] at hc
        cases hc
        exact ⟨⟨hp, hk.files⟩, fun _ h => nomatch h⟩
      | some f =>
        rw [lookup_found _ _ _ m f hst ho] at hc
        cases ha : attributesOf m with
        | panic => rw [ha] at hc; exact nomatch hc
        | ok a =>
          rw [ha] at hc
          simp only [Outcome.bind] at hc
          cases hc
          refine ⟨?_, ?_⟩
          · cases hfile : m.isFile with
            | false => exact ⟨hp, hk.files⟩
            | true =>
              refine ⟨.root, ?_⟩
              intro fh' i g h1 h2 h3
              simp only [if_true] at h3
              split at h3
              · rename_i hi
                cases h3
                subst hi
                exact ⟨before, ev, [], _, m, rfl, hp, hst, hfile, handleFor_of_ino h1 h2, ho⟩
              · exact hk.files fh' i g h1 h2 h3
          · intro reply hreply
            cases hreply
            rw [datagram_lookup _ m a (dated_of_attributes ha)]
            exact .lookup hcall hp hst ho
  | getattr fh h1 =>
    have hc : s.getattr .little ev.world ⟨⟨fh⟩⟩ = .ok (r, s') := hc
    unfold Nfs.getattr at hc
    cases hi : FileHandle.ino .little ⟨fh⟩ with
    | panic => simp only [hi, Outcome.bind] at hc; exact nomatch hc
    | ok i =>
      simp only [hi, Outcome.bind] at hc
      cases hh : s.handlers i with
      | none => rw [hh] at hc; cases hc; exact ⟨hk, fun _ h => nomatch h⟩
      | some f =>
        rw [hh] at hc
        simp only at hc
        cases hst : ev.world.fstat f with
        | none => rw [hst] at hc; cases hc; exact ⟨hk, fun _ h => nomatch h⟩
        | some m =>
          rw [hst] at hc
          simp only at hc
          cases ha : attributesOf m with
          | panic => rw [ha] at hc; exact nomatch hc
          | ok a =>
            rw [ha] at hc
            cases hc
            refine ⟨hk, fun reply hreply => ?_⟩
            cases hreply
            rw [datagram_getattr _ m a (dated_of_attributes ha)]
            exact .getattr hcall (h.files fh i f h1 hi hh) hst
  | read fh o c t h1 =>
    have hc : s.read .little ev.world ⟨⟨fh⟩, o, c, t⟩ = .ok (r, s') := hc
    unfold Nfs.read at hc
    cases hi : FileHandle.ino .little ⟨fh⟩ with
    | panic => simp only [hi, Outcome.bind] at hc; exact nomatch hc
    | ok i =>
      simp only [hi, Outcome.bind] at hc
      cases hh : s.handlers i with
      | none => rw [hh] at hc; cases hc; exact ⟨hk, fun _ h => nomatch h⟩
      | some f =>
        rw [hh] at hc
        simp only [readFileRange] at hc
        cases hb : ev.world.pread f o.toNat c.toNat with
        | none => rw [hb] at hc; cases hc; exact ⟨hk, fun _ h => nomatch h⟩
        | some b =>
          rw [hb] at hc
          simp only [Option.map_some] at hc
          cases hst : ev.world.fstat f with
          | none => rw [hst] at hc; cases hc; exact ⟨hk, fun _ h => nomatch h⟩
          | some m =>
            rw [hst] at hc
            simp only at hc
            cases ha : attributesOf m with
            | panic => rw [ha] at hc; exact nomatch hc
            | ok a =>
              rw [ha] at hc
              cases hc
              refine ⟨hk, fun reply hreply => ?_⟩
              cases hreply
              rw [datagram_read _ m a _ (dated_of_attributes ha)]
              exact .read hcall (h.files fh i f h1 hi hh) hb hst
  | _ => exact other rfl

theorem known_step (before : List (NfsEvent F)) (ev : NfsEvent F) (s : Nfs F) (pending : Option (Bytes × Addr))
    (h : Known before s) (out : List (Bytes × Addr)) (t : NfsTask F)
    (hs : nfsStep .little ev.world ev.os ev.recv (.running s pending) = (out, t)) :
    (∀ s' p', t = .running s' p' → Known (before ++ [ev]) s') ∧
    ((out ++ t.waiting.toList).Sublist pending.toList ∨
      ∃ d b peer, ev.recv = .datagram d peer ∧ MayAnswer before ev d b ∧
        (out ++ t.waiting.toList).Sublist (pending.toList ++ [(b, peer)])) := by
  have idle : ([], NfsTask.running s pending) = (out, t) →
      (∀ s' p', t = .running s' p' → Known (before ++ [ev]) s') ∧
      ((out ++ t.waiting.toList).Sublist pending.toList ∨
        ∃ d b peer, ev.recv = .datagram d peer ∧ MayAnswer before ev d b ∧
          (out ++ t.waiting.toList).Sublist (pending.toList ++ [(b, peer)])) := by
    intro e
    cases e
    exact ⟨fun s' p' e => by cases e; exact known_mono h [ev], .inl (List.Sublist.refl _)⟩
  have gone : (([] : List (Bytes × Addr)), NfsTask.dead) = (out, t) →
      (∀ s' p', t = .running s' p' → Known (before ++ [ev]) s') ∧
      ((out ++ t.waiting.toList).Sublist pending.toList ∨
        ∃ d b peer, ev.recv = .datagram d peer ∧ MayAnswer before ev d b ∧
          (out ++ t.waiting.toList).Sublist (pending.toList ++ [(b, peer)])) := by
    intro e
    cases e
    exact ⟨fun _ _ h => (nomatch h), .inl (by simp [NfsTask.waiting])⟩
  cases hr : ev.recv with
  | ioError => rw [hr] at hs idle; exact idle hs
  | datagram d peer =>
    rw [hr] at hs idle gone
    simp only [nfsStep] at hs
    cases hf : rpcFrame d with
    | nothing => rw [hf] at hs; exact idle hs
    | invalid => rw [hf] at hs; exact idle hs
    | panic => rw [hf] at hs; exact gone hs
    | request q =>
      rw [hf] at hs
      simp only at hs
      cases hc : s.callProcedure .little ev.world q.call.procedure with
      | panic => rw [hc] at hs; exact gone hs
      | ok x =>
        obtain ⟨r, s1⟩ := x
        obtain ⟨hk, ha⟩ := known_call before ev s h hr hf hc
        rw [hc] at hs
        cases r with
        | error _ =>
          cases hs
          exact ⟨fun s' p' e => by cases e; exact hk, .inl (List.Sublist.refl _)⟩
        | ok reply =>
          cases hs
          refine ⟨fun s' p' e => by cases e; exact hk, .inr ⟨d, _, peer, rfl, ha reply rfl, ?_⟩⟩
          exact udpSend_order ev.os pending _ peer

theorem known_run (evs before : List (NfsEvent F)) (t : NfsTask F)
    (h : ∀ s p, t = .running s p → Known before s) :
    ∃ xs, Accounted before evs xs ∧ (nfsRun .little t evs).1.Sublist (t.waiting.toList ++ xs) := by
  induction evs generalizing before t with
  | nil => exact ⟨[], .nil, List.nil_sublist _⟩
  | cons ev evs ih =>
    cases t with
    | dead =>
      obtain ⟨xs, h1, _⟩ := ih (before ++ [ev]) .dead (fun _ _ h => nomatch h)
      refine ⟨xs, .unanswered h1, ?_⟩
      rw [nfsRun_dead]
      exact List.nil_sublist _
    | running s p =>
      rcases hs : nfsStep .little ev.world ev.os ev.recv (.running s p) with ⟨out, t⟩
      obtain ⟨h1, h2⟩ := known_step before ev s p (h s p rfl) out t hs
      obtain ⟨xs, h3, h4⟩ := ih (before ++ [ev]) t h1
      have he : (nfsRun .little (.running s p) (ev :: evs)).1 = out ++ (nfsRun .little t evs).1 := by
        show (nfsStep .little ev.world ev.os ev.recv (.running s p)).1 ++
          (nfsRun .little (nfsStep .little ev.world ev.os ev.recv (.running s p)).2 evs).1 = _
        rw [hs]
      have h5 : (out ++ (nfsRun .little t evs).1).Sublist ((out ++ t.waiting.toList) ++ xs) := by
        rw [List.append_assoc]
        exact h4.append_left out
      rw [he]
      rcases h2 with h2 | ⟨d, b, peer, hr, ha, h2⟩
      · exact ⟨xs, .unanswered h3, h5.trans (h2.append_right xs)⟩
      · refine ⟨(b, peer) :: xs, .answered hr ha h3, ?_⟩
        have := h5.trans (h2.append_right xs)
        simpa [NfsTask.waiting] using this

/-- C99: whatever an NFS handler sends, in every history, whatever the OS refuses to send: it answers some
of the calls (by byte offsets), each once and in the order they came, to the sender of the call, and with
the attributes and data of a file at a path made of names looked up before. -/
theorem C99_accounted (evs : List (NfsEvent F)) : Accounted [] evs (nfsRun .little .start evs).1 := by
  obtain ⟨xs, h1, h2⟩ := known_run evs [] .start (fun s p h => by
    cases h
    exact ⟨.root, fun _ _ _ _ _ h => (nomatch h)⟩)
  exact accounted_sublist h1 h2

theorem accounted_mem {before evs : List (NfsEvent F)} {xs : List (Bytes × Addr)} (h : Accounted before evs xs)
    {x : Bytes × Addr} (hx : x ∈ xs) : ∃ earlier ev later d, evs = earlier ++ ev :: later ∧
      ev.recv = .datagram d x.2 ∧ MayAnswer (before ++ earlier) ev d x.1 := by
  induction h with
  | nil => exact nomatch hx
  | @unanswered before ev evs xs _ ih =>
    obtain ⟨earlier, ev', later, d, rfl, h1, h2⟩ := ih hx
    exact ⟨ev :: earlier, ev', later, d, rfl, h1, by simpa using h2⟩
  | @answered before ev evs xs d b peer hr ha _ ih =>
    rcases List.mem_cons.1 hx with rfl | hx
    · exact ⟨[], ev, evs, d, rfl, hr, by simpa using ha⟩
    · obtain ⟨earlier, ev', later, d, rfl, h1, h2⟩ := ih hx
      exact ⟨ev :: earlier, ev', later, d, rfl, h1, by simpa using h2⟩

/-- C43 (full claim: only files of the music folder are served), what does hold.  Missing: the music folder plays
no part (`C43_any_readable_file_is_served`).  Every datagram a handler sends answers a call it received, and what
it says is what the OS said of a file at a path made of names that had been looked up at this handler. -/
theorem C43_only_named_files_partial (evs : List (NfsEvent F)) (x : Bytes × Addr)
    (hx : x ∈ (nfsRun .little .start evs).1) :
    ∃ earlier ev later d, evs = earlier ++ ev :: later ∧ ev.recv = .datagram d x.2 ∧
      MayAnswer earlier ev d x.1 :=
  accounted_mem (C99_accounted evs) hx

example : ∃ evs : List (NfsEvent Nat), ∃ earlier ev later d, evs = earlier ++ ev :: later ∧
    ev.recv = .datagram d ⟨1, 2⟩ ∧
      MayAnswer earlier ev d (readReplyOf 7 (sampleMeta 4 true) [1, 2, 4]) := by
  have h := C43_any_readable_file_is_served fullWorld fullContent fullReads_fullWorld sampleHdr ⟨1, 2⟩
    ['/', 'x'] (by decide) (by decide) (sampleMeta 4 true) 4 (by decide) (by decide)
    (dated_sampleMeta _ _) (by decide) rfl 0 3 0 (by decide) Nfs.new
  exact ⟨_, C43_only_named_files_partial _ (readReplyOf 7 (sampleMeta 4 true) [1, 2, 4], ⟨1, 2⟩)
    (by rw [show nfsRun .little .start _ = nfsRun .little (.running Nfs.new none) _ from rfl, h]
        exact List.mem_cons_of_mem _ (List.mem_singleton.2 rfl))⟩

/-- A file named by its absolute path, and three bytes of it. -/
example : ∃ evs : List (NfsEvent Nat), ∃ b,
    Accounted [] evs [b, (readReplyOf 7 (sampleMeta 4 true) [1, 2, 4], ⟨1, 2⟩)] := by
  have h := C43_any_readable_file_is_served fullWorld fullContent fullReads_fullWorld sampleHdr ⟨1, 2⟩
    ['/', 'x'] (by decide) (by decide) (sampleMeta 4 true) 4 (by decide) (by decide)
    (dated_sampleMeta _ _) (by decide) rfl 0 3 0 (by decide) Nfs.new
  exact ⟨_, _, h ▸ C99_accounted _⟩

end PDJ
