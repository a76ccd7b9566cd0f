import Verif.Spec.NfsEnd
import Verif.Props.Explained
import Mathlib.Data.List.Induction

/-!
# Property C42: exactly what ends a file handler
-/

namespace PDJ

open Spec

variable {F : Type}

theorem handleFor_ino {fh : Bytes} {i j : UInt64} (h : HandleFor fh i)
    (hj : FileHandle.ino .little ⟨fh⟩ = .ok j) : i = j := by
  have := (handleFor_of_ino h.1 hj).2
  rw [h.2] at this
  exact UInt64.toNat_inj.1 this

theorem attributes_panic (m : Meta) : attributesOf m = .panic ↔ ¬ Dated m := by
  constructor
  · intro h hd
    obtain ⟨a, ha, _⟩ := attributesOf_dated m hd
    rw [ha] at h
    exact nomatch h
  · exact attributesOf_undated m

theorem attributes_bind_panic {α : Type} (m : Meta) (k : NfsFileAttributes → α) :
    ((attributesOf m).bind fun a => Outcome.ok (k a)) = .panic ↔ ¬ Dated m := by
  rw [← attributes_panic]
  cases attributesOf m with
  | panic => exact ⟨fun _ => rfl, fun _ => rfl⟩
  | ok a => exact ⟨fun h => (nomatch h), fun h => (nomatch h)⟩

theorem nfsReply_dead (os : SendOs) (pending : Option (Bytes × Addr)) (xid : UInt32) (peer : Addr)
    (r : NfsResult F) : (nfsReply os pending xid peer r).2 = .dead ↔ r = .panic := by
  cases r with
  | panic => exact ⟨fun _ => rfl, fun _ => rfl⟩
  | ok x =>
    obtain ⟨x, s⟩ := x
    cases x <;> exact ⟨fun h => (nomatch h), fun h => (nomatch h)⟩

theorem lookup_panic (w : World F) (a : NfsLookup) (s : Nfs F) :
    s.lookup w a = .panic ↔ ∃ m f, w.stat (pushPath s.path a.filename) = some m ∧
      w.openFile (pushPath s.path a.filename) = some f ∧ ¬ Dated m := by
  cases hs : w.stat (pushPath s.path a.filename) with
  | none =>
    rw [lookup_missing w a s hs]
    exact ⟨fun h => (nomatch h), fun ⟨_, _, h, _⟩ => (nomatch h)⟩
  | some m =>
    cases ho : w.openFile (pushPath s.path a.filename) with
    | none =>
      rw [lookup_unopenable w a s m hs ho]
      exact ⟨fun h => (nomatch h), fun ⟨_, _, _, h, _⟩ => (nomatch h)⟩
    | some f =>
      rw [lookup_found w a s m f hs ho, attributes_bind_panic]
      constructor
      · exact fun h => ⟨m, f, rfl, rfl, h⟩
      · rintro ⟨_, _, h, _, hd⟩
        cases h
        exact hd

theorem getattr_panic (w : World F) (fh : FileHandle) (i : UInt64) (hi : fh.ino .little = .ok i)
    (s : Nfs F) : s.getattr .little w ⟨fh⟩ = .panic ↔
      ∃ f m, s.handlers i = some f ∧ w.fstat f = some m ∧ ¬ Dated m := by
  unfold Nfs.getattr
  simp only [hi, Outcome.bind]
  cases hk : s.handlers i with
  | none => exact ⟨fun h => (nomatch h), fun ⟨_, _, h, _⟩ => (nomatch h)⟩
  | some f =>
    simp only
    cases hm : w.fstat f with
    | none =>
      refine ⟨fun h => (nomatch h), ?_⟩
      rintro ⟨_, _, h, h', _⟩
      cases h
      rw [hm] at h'
      exact nomatch h'
    | some m =>
      simp only
      refine (attributes_bind_panic m _).trans ?_
      constructor
      · exact fun h => ⟨f, m, rfl, hm, h⟩
      · rintro ⟨_, _, h, h', hd⟩
        cases h
        rw [hm] at h'
        cases h'
        exact hd

theorem read_panic (w : World F) (fh : FileHandle) (o c t : UInt32) (i : UInt64)
    (hi : fh.ino .little = .ok i) (s : Nfs F) : s.read .little w ⟨fh, o, c, t⟩ = .panic ↔
      ∃ f b m, s.handlers i = some f ∧ w.pread f o.toNat c.toNat = some b ∧ w.fstat f = some m ∧
        ¬ Dated m := by
  unfold Nfs.read
  simp only [hi, Outcome.bind, readFileRange]
  cases hk : s.handlers i with
  | none => exact ⟨fun h => (nomatch h), fun ⟨_, _, _, h, _⟩ => (nomatch h)⟩
  | some f =>
    simp only
    cases hb : w.pread f o.toNat c.toNat with
    | none =>
      refine ⟨fun h => (nomatch h), ?_⟩
      rintro ⟨_, _, _, h, h', _⟩
      cases h
      rw [hb] at h'
      exact nomatch h'
    | some b =>
      simp only [Option.map_some]
      cases hm : w.fstat f with
      | none =>
        refine ⟨fun h => (nomatch h), ?_⟩
        rintro ⟨_, _, _, h, _, h', _⟩
        cases h
        rw [hm] at h'
        exact nomatch h'
      | some m =>
        simp only
        refine (attributes_bind_panic m _).trans ?_
        constructor
        · exact fun h => ⟨f, b, m, rfl, hb, hm, h⟩
        · rintro ⟨_, _, _, h, _, h', hd⟩
          cases h
          rw [hm] at h'
          cases h'
          exact hd

theorem ino_of_length {fh : Bytes} (h : fh.length = 32) :
    ∃ i, FileHandle.ino .little ⟨fh⟩ = .ok i := by
  match fh, h with
  | b0 :: b1 :: b2 :: b3 :: b4 :: b5 :: b6 :: b7 :: r, _ => exact ⟨_, rfl⟩

/-- C42: exactly what ends a file handler.  Nothing else that is received, no error of the OS and no
refused answer ends it. -/
theorem C42_ends_iff (w : World F) (os : SendOs) (r : Recv) (s : Nfs F)
    (pending : Option (Bytes × Addr)) (hp : s.path ≠ []) :
    (nfsStep .little w os r (.running s pending)).2 = .dead ↔
      ∃ d peer, r = .datagram d peer ∧ Fatal w s.path s.handlers d := by
  cases r with
  | ioError => exact ⟨fun h => (nomatch h), fun ⟨_, _, h, _⟩ => (nomatch h)⟩
  | datagram d peer =>
    have hx : (∃ d' peer', Recv.datagram d peer = .datagram d' peer' ∧ Fatal w s.path s.handlers d') ↔
        Fatal w s.path s.handlers d :=
      ⟨fun ⟨_, _, h, hf⟩ => by cases h; exact hf, fun h => ⟨d, peer, rfl, h⟩⟩
    rw [hx]
    have nocall : (∀ q, rpcFrame d ≠ .request q) → rpcFrame d ≠ .panic →
        ¬ Fatal w s.path s.handlers d := by
      intro hq hr hf
      have no : ∀ xid p, ¬ IsCall d xid p := by
        intro xid p hc
        obtain ⟨q, h, _⟩ := (C81_call_iff d xid p).1 hc
        exact hq q h
      cases hf with
      | reply h => exact hr ((C29_panics_exactly_on_replies_partial d).2 h)
      | lookup hc | getattr hc | read hc => exact no _ _ hc
    show (match rpcFrame d with
      | .nothing => ([], NfsTask.running s pending)
      | .invalid => ([], .running s pending)
      | .panic => ([], .dead)
      | .request q => nfsReply os pending q.xid peer
          (s.callProcedure .little w q.call.procedure)).2 = .dead ↔ _
    cases hf : rpcFrame d with
    | nothing =>
      refine ⟨fun h => (nomatch h), fun h => absurd h (nocall ?_ ?_)⟩ <;> rw [hf]
      · exact fun _ h => (nomatch h)
      · exact fun h => (nomatch h)
    | invalid =>
      refine ⟨fun h => (nomatch h), fun h => absurd h (nocall ?_ ?_)⟩ <;> rw [hf]
      · exact fun _ h => (nomatch h)
      · exact fun h => (nomatch h)
    | panic => exact ⟨fun _ => .reply ((C29_panics_exactly_on_replies_partial d).1 hf), fun _ => rfl⟩
    | request q =>
      show (nfsReply os pending q.xid peer _).2 = _ ↔ _
      rw [nfsReply_dead]
      obtain ⟨p, hcall, hm⟩ := request_isCall hf
      have uniq : ∀ {xid p'}, IsCall d xid p' → p' = p :=
        fun h => (C81_call_unique d _ _ _ _ h hcall).2
      have noreply : ¬ IsReply d := by
        intro h
        rw [(C29_panics_exactly_on_replies_partial d).2 h] at hf
        exact nomatch hf
      generalize q.call.program = prog at hm
      generalize q.call.procedure = proc at hm
      clear hx nocall hf
      cases hm with
      | lookup fh name h1 =>
        show s.lookup w ⟨name, ⟨fh⟩⟩ = .panic ↔ _
        rw [lookup_panic]
        constructor
        · rintro ⟨m, f, h2, h3, h4⟩
          exact .lookup hcall (resolves_push _ _ hp) h2 h3 h4
        · intro h
          cases h with
          | reply h => exact absurd h noreply
          | lookup hc hr hs ho hd =>
            cases uniq hc
            rw [← push_of_resolves hr] at hs ho
            exact ⟨_, _, hs, ho, hd⟩
          | getattr hc | read hc => exact nomatch uniq hc
      | getattr fh h1 =>
        obtain ⟨i, hi⟩ := ino_of_length h1
        show s.getattr .little w ⟨⟨fh⟩⟩ = .panic ↔ _
        rw [getattr_panic w _ i hi]
        constructor
        · rintro ⟨f, m, h2, h3, h4⟩
          exact .getattr hcall (handleFor_of_ino h1 hi) h2 h3 h4
        · intro h
          cases h with
          | reply h => exact absurd h noreply
          | getattr hc hh hf hs hd =>
            cases uniq hc
            obtain rfl := handleFor_ino hh hi
            exact ⟨_, _, hf, hs, hd⟩
          | lookup hc | read hc => exact nomatch uniq hc
      | read fh o c t h1 =>
        obtain ⟨i, hi⟩ := ino_of_length h1
        show s.read .little w ⟨⟨fh⟩, o, c, t⟩ = .panic ↔ _
        rw [read_panic w _ o c t i hi]
        constructor
        · rintro ⟨f, b, m, h2, h3, h4, h5⟩
          exact .read hcall (handleFor_of_ino h1 hi) h2 h3 h4 h5
        · intro h
          cases h with
          | reply h => exact absurd h noreply
          | read hc hh hf hb hs hd =>
            cases uniq hc
            obtain rfl := handleFor_ino hh hi
            exact ⟨_, _, _, hf, hb, hs, hd⟩
          | lookup hc | getattr hc => exact nomatch uniq hc
      | _ =>
        refine ⟨fun h => (nomatch h), fun h => ?_⟩
        cases h with
        | reply h => exact absurd h noreply
        | lookup hc | getattr hc | read hc => exact nomatch uniq hc

theorem known_after (evs before : List (NfsEvent F)) (t : NfsTask F)
    (h : ∀ s p, t = .running s p → Known before s) :
    ∀ s p, (nfsRun .little t evs).2 = .running s p → Known (before ++ evs) s := by
  induction evs generalizing before t with
  | nil => intro s p e; rw [List.append_nil]; exact h s p e
  | cons ev evs ih =>
    intro s p e
    have := ih (before ++ [ev]) (nfsStep .little ev.world ev.os ev.recv t).2 (by
      cases t with
      | dead => exact fun _ _ h => (nomatch h)
      | running s0 p0 => exact (known_step before ev s0 p0 (h s0 p0 rfl) _ _ rfl).1) s p e
    simpa using this

/-- C42, for whole histories: a file handler has ended exactly if something fatal was received while it
still ran. -/
theorem C42_history_ends_iff (evs : List (NfsEvent F)) :
    (nfsRun .little .start evs).2 = .dead ↔
      ∃ before ev after s p d peer, evs = before ++ ev :: after ∧
        (nfsRun .little .start before).2 = .running s p ∧ ev.recv = .datagram d peer ∧
        Fatal ev.world s.path s.handlers d := by
  have start : ∀ s p, NfsTask.start = .running s p → Known ([] : List (NfsEvent F)) s := by
    intro s p h
    cases h
    exact ⟨.root, fun _ _ _ _ _ h => (nomatch h)⟩
  have path : ∀ before s p, (nfsRun .little .start before).2 = NfsTask.running (F := F) s p →
      s.path ≠ [] :=
    fun before s p h => named_ne_nil (known_after before [] .start start s p h).path
  constructor
  · induction evs using List.reverseRecOn with
    | nil => exact fun h => (nomatch h)
    | append_singleton evs ev ih =>
      intro h
      rw [nfsRun_append] at h
      cases ht : (nfsRun .little .start evs).2 with
      | dead =>
        obtain ⟨before, ev', after, s, p, d, peer, rfl, hr⟩ := ih ht
        exact ⟨before, ev', after ++ [ev], s, p, d, peer, by simp, hr⟩
      | running s p =>
        rw [ht] at h
        obtain ⟨d, peer, hr, hf⟩ := (C42_ends_iff ev.world ev.os ev.recv s p (path _ _ _ ht)).1 h
        exact ⟨evs, ev, [], s, p, d, peer, rfl, ht, hr, hf⟩
  · rintro ⟨before, ev, after, s, p, d, peer, rfl, ht, hr, hf⟩
    have hd := (C42_ends_iff ev.world ev.os ev.recv s p (path _ _ _ ht)).2 ⟨d, peer, hr, hf⟩
    rw [nfsRun_append, ht]
    show (nfsRun .little (nfsStep .little ev.world ev.os ev.recv (.running s p)).2 after).2 = .dead
    rw [hd, nfsRun_dead]

/-! ## Cases -/

example : (nfsRun .little (.start : NfsTask Nat) [⟨undatedWorld, fun _ _ _ => true,
    .datagram (callDatagram sampleHdr (.nfsLookup (List.replicate 32 0) ['x'])) ⟨1, 2⟩⟩]).2 = .dead :=
  (C42_history_ends_iff _).2 ⟨[], _, [], Nfs.new, none, _, _, rfl, rfl, rfl,
    .lookup (isCall_callDatagram sampleHdr _ _ _ (.lookup _ ['x'] rfl (by decide)) (by intro p; simp))
      (.below [] ['x'] (by decide)) (m := undatedMeta) (f := 4) (by decide) (by decide)
      (by simp [Dated, undatedMeta])⟩

example := C42_ends_iff sampleWorld (fun _ _ _ => true) .ioError (Nfs.new : Nfs Nat) none
  (by simp [Nfs.new])

end PDJ
