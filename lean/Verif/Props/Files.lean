import Verif.Spec.Files
import Verif.Props.Nfs
import Verif.Props.Calls
import Verif.Props.Exhaustion

/-!
# The files an NFS handler has open: property C105
-/

namespace PDJ

open Spec

variable {F : Type}

theorem hasOpen_start : HasOpen (.start : NfsTask F) [] :=
  ⟨List.nodup_nil, fun i => by simp [Nfs.new]⟩

theorem hasOpen_length {t : NfsTask F} {l l' : List UInt64} (h : HasOpen t l) (h' : HasOpen t l') :
    l.length ≤ l'.length := by
  cases t with
  | dead =>
    have := h.2
    simp only at this
    rw [this]
    exact Nat.zero_le _
  | running s p => exact length_le_of_pool l l' h.1 (fun i hi => (h'.2 i).2 ((h.2 i).1 hi))

/-- One step keeps what is open open, and adds at most one file. -/
theorem hasOpen_step (e : Endian) (ev : NfsEvent F) (t : NfsTask F) (l : List UInt64) (h : HasOpen t l) :
    (nfsStep e ev.world ev.os ev.recv t).2 = .dead ∨
    HasOpen (nfsStep e ev.world ev.os ev.recv t).2 l ∨
    ∃ p m f, ev.world.stat p = some m ∧ m.isFile = true ∧ ev.world.openFile p = some f ∧ m.ino ∉ l ∧
      HasOpen (nfsStep e ev.world ev.os ev.recv t).2 (m.ino :: l) := by
  cases t with
  | dead => exact .inl rfl
  | running s p =>
    rcases hs : nfsStep e ev.world ev.os ev.recv (.running s p) with ⟨out, t'⟩
    cases t' with
    | dead => exact .inl rfl
    | running s' p' =>
      rcases step_handlers e _ _ _ s p out s' p' hs with h1 | ⟨_, _, _, a, m, f, _, _, _, h2, h3, h4, h5, _⟩
      · exact .inr (.inl ⟨h.1, fun i => by rw [h1]; exact h.2 i⟩)
      · by_cases hm : m.ino ∈ l
        · refine .inr (.inl ⟨h.1, fun i => ?_⟩)
          rw [h5]
          by_cases hi : i = m.ino
          · simp [hi, hm]
          · simp only [if_neg hi]
            exact h.2 i
        · refine .inr (.inr ⟨_, m, f, h2, h3, h4, hm, List.nodup_cons.2 ⟨hm, h.1⟩, fun i => ?_⟩)
          rw [h5]
          by_cases hi : i = m.ino
          · simp [hi]
          · simp only [List.mem_cons, hi, false_or]
            exact h.2 i

theorem hasOpen_dead : HasOpen (.dead : NfsTask F) [] := ⟨List.nodup_nil, rfl⟩

/-- A run keeps what is open open. -/
theorem hasOpen_run (e : Endian) (evs : List (NfsEvent F)) (t : NfsTask F) (l : List UInt64) (h : HasOpen t l) :
    (nfsRun e t evs).2 = .dead ∨ ∃ new, HasOpen (nfsRun e t evs).2 (new ++ l) ∧
      ∀ i ∈ new, ∃ ev ∈ evs, ∃ p m f, ev.world.stat p = some m ∧ m.isFile = true ∧ m.ino = i ∧
        ev.world.openFile p = some f := by
  induction evs generalizing t l with
  | nil => exact .inr ⟨[], h, fun _ hi => (nomatch hi)⟩
  | cons ev evs ih =>
    show (nfsRun e (nfsStep e ev.world ev.os ev.recv t).2 evs).2 = .dead ∨ ∃ new,
      HasOpen (nfsRun e (nfsStep e ev.world ev.os ev.recv t).2 evs).2 (new ++ l) ∧ _
    rcases hasOpen_step e ev t l h with h1 | h1 | ⟨p, m, f, k1, k2, k3, k4, h1⟩
    · rw [h1, nfsRun_dead]
      exact .inl rfl
    · rcases ih _ l h1 with h2 | ⟨new, h2, h3⟩
      · exact .inl h2
      · refine .inr ⟨new, h2, fun i hi => ?_⟩
        obtain ⟨ev', he, hx⟩ := h3 i hi
        exact ⟨ev', List.mem_cons_of_mem _ he, hx⟩
    · rcases ih _ _ h1 with h2 | ⟨new, h2, h3⟩
      · exact .inl h2
      · refine .inr ⟨new ++ [m.ino], by simpa using h2, fun i hi => ?_⟩
        rcases List.mem_append.1 hi with hi | hi
        · obtain ⟨ev', he, hx⟩ := h3 i hi
          exact ⟨ev', List.mem_cons_of_mem _ he, hx⟩
        · exact ⟨ev, List.mem_cons_self, p, m, f, k1, k2, (List.mem_singleton.1 hi).symm, k3⟩

/-- C105: in every history, as long as the handler runs, a file that is open stays open: the files it has open
are the ones it had open before and others, each a regular file that it could open, one for each inode. -/
theorem C105_never_closed (e : Endian) (evs evs' : List (NfsEvent F))
    (h : (nfsRun e .start (evs ++ evs')).2 ≠ .dead) :
    ∃ l new, HasOpen (nfsRun e .start evs).2 l ∧ HasOpen (nfsRun e .start (evs ++ evs')).2 (new ++ l) ∧
      ∀ i ∈ new ++ l, ∃ ev ∈ evs ++ evs', ∃ p m f, ev.world.stat p = some m ∧ m.isFile = true ∧ m.ino = i ∧
        ev.world.openFile p = some f := by
  rw [nfsRun_append] at h ⊢
  simp only at h ⊢
  rcases hasOpen_run e evs .start [] hasOpen_start with h1 | ⟨l, h1, h2⟩
  · rw [h1, nfsRun_dead] at h
    exact absurd rfl h
  · rw [List.append_nil] at h1
    rcases hasOpen_run e evs' _ l h1 with h3 | ⟨new, h3, h4⟩
    · exact absurd h3 h
    · refine ⟨l, new, h1, h3, fun i hi => ?_⟩
      rcases List.mem_append.1 hi with hi | hi
      · obtain ⟨ev, he, hx⟩ := h4 i hi
        exact ⟨ev, List.mem_append_right _ he, hx⟩
      · obtain ⟨ev, he, hx⟩ := h2 i hi
        exact ⟨ev, List.mem_append_left _ he, hx⟩

theorem lookupReply_kind {xid : UInt32} {m m' : Meta} (h : lookupReply xid m = lookupReply xid m') :
    m.ino = m'.ino ∧ m.isDir = m'.isDir := by
  have h1 : be32 0 ++ handleOf m.ino ++ (fattr m).flatMap be32 =
      be32 0 ++ handleOf m'.ino ++ (fattr m').flatMap be32 := List.append_cancel_left h
  rw [List.append_assoc, List.append_assoc] at h1
  obtain ⟨h2, h3⟩ := List.append_inj (List.append_cancel_left h1)
    ((length_handleOf m.ino).trans (length_handleOf m'.ino).symm)
  have e := ino_handleOf m.ino
  rw [h2, ino_handleOf, Outcome.ok.injEq] at e
  refine ⟨e.symm, ?_⟩
  have h4 := congrArg (List.take 4) h3
  simp only [fattr, List.flatMap_cons] at h4
  rw [List.take_left' (by simp), List.take_left' (by simp)] at h4
  cases hm : m.isDir <;> cases hm' : m'.isDir <;> rw [hm, hm'] at h4 <;>
    first | rfl | exact absurd h4 (by decide)

/-- A file that is open stays open. -/
theorem run_keeps_open (e : Endian) (evs : List (NfsEvent F)) (s s' : Nfs F) (p p' : Option (Bytes × Addr))
    (h : (nfsRun e (.running s p) evs).2 = .running s' p') (i : UInt64) (hi : s.handlers i ≠ none) :
    s'.handlers i ≠ none := by
  induction evs generalizing s p with
  | nil =>
    cases h
    exact hi
  | cons x xs ih =>
    simp only [nfsRun] at h
    rcases hst : nfsStep e x.world x.os x.recv (.running s p) with ⟨out, t⟩
    rw [hst] at h
    cases t with
    | dead =>
      rw [nfsRun_dead] at h
      exact nomatch h
    | running s1 p1 =>
      refine ih s1 p1 h ?_
      rcases step_handlers e _ _ _ _ _ _ _ _ hst with h' | ⟨_, _, _, _, m, g, _, _, _, _, _, _, k5, _⟩
      · rw [h']
        exact hi
      · rw [k5]
        by_cases hm : i = m.ino
        · simp [hm]
        · simpa only [if_neg hm] using hi

theorem answeredFile_mono (e : Endian) (xs ys : List (NfsEvent F)) (i : UInt64)
    (h : AnsweredFile e xs i) : AnsweredFile e (xs ++ ys) i := by
  obtain ⟨before, ev, after, d, peer, xid, fh, name, m, rfl, h1, h2, h3, h4, h5⟩ := h
  exact ⟨before, ev, after ++ ys, d, peer, xid, fh, name, m, by simp, h1, h2, h3, h4, h5⟩

/-- A file that is open was looked up, and the LOOKUP was answered. -/
theorem open_answered (e : Endian) (evs : List (NfsEvent F)) (hacc : AcceptsAll evs)
    (hw : ∀ ev ∈ evs, FilesAndDirs ev.world) :
    ∀ (s : Nfs F) (p : Option (Bytes × Addr)), (nfsRun e .start evs).2 = .running s p →
      ∀ i, s.handlers i ≠ none → AnsweredFile e evs i := by
  induction hn : evs.length generalizing evs with
  | zero =>
    obtain rfl := List.length_eq_zero_iff.1 hn
    intro s p h i hi
    cases h
    exact absurd rfl hi
  | succ n ih =>
    intro s p h i hi
    obtain ⟨xs, x, rfl⟩ : ∃ xs x, evs = xs ++ [x] :=
      ⟨_, _, (List.dropLast_concat_getLast (List.ne_nil_of_length_pos (by omega))).symm⟩
    have ih := ih xs
    simp only [List.length_append, List.length_singleton, Nat.add_right_cancel_iff] at hn
    have hx := hacc x (by simp)
    have hxs : AcceptsAll xs := fun ev he => hacc ev (by simp [he])
    rw [nfsRun_append] at h
    simp only [nfsRun] at h
    rcases run_no_pending e xs hxs Nfs.new with ⟨o, s1, h1⟩ | h1
    · have h1' : (nfsRun e .start xs).2 = .running s1 none := congrArg (·.2) h1
      rw [h1'] at h
      rcases hst : nfsStep e x.world x.os x.recv (.running s1 none) with ⟨out, t⟩
      rw [hst] at h
      simp only at h
      subst h
      rcases step_handlers e _ _ _ _ _ _ _ _ hst with
        h' | ⟨d, peer, q, a, m, g, k0, k1, k1', k2, k3, k4, k5, k6⟩
      · exact answeredFile_mono e xs [x] i (ih hxs (fun ev he => hw ev (by simp [he])) hn s1 none h1' i
          (by rw [← h']; exact hi))
      · by_cases hi' : i = m.ino
        · obtain ⟨pr, hc, hm⟩ := request_isCall k1
          rw [k1'] at hm
          generalize q.call.program = pg at hm
          cases hm
          refine ⟨xs, x, [], d, peer, q.xid, _, _, m, rfl, k0, hc, hi'.symm,
            (hw x (by simp) _ _ k2).1 k3, ?_⟩
          rw [h1', hst]
          rw [hx] at k6
          exact (Prod.ext_iff.1 k6).1
        · refine answeredFile_mono e xs [x] i (ih hxs (fun ev he => hw ev (by simp [he])) hn s1 none h1' i ?_)
          rw [k5] at hi
          simpa only [if_neg hi'] using hi
    · have h1' : (nfsRun e .start xs).2 = .dead := h1
      rw [h1'] at h
      exact nomatch h

/-- A file whose LOOKUP was answered is open. -/
theorem answered_open (e : Endian) (evs : List (NfsEvent F)) (hacc : AcceptsAll evs)
    (hw : ∀ ev ∈ evs, FilesAndDirs ev.world) (i : UInt64) (h : AnsweredFile e evs i) (s : Nfs F)
    (p : Option (Bytes × Addr)) (hr : (nfsRun e .start evs).2 = .running s p) : s.handlers i ≠ none := by
  obtain ⟨before, ev, after, d, peer, xid, fh, name, m, rfl, h1, h2, rfl, h4, h5⟩ := h
  have hx := hacc ev (by simp)
  have hb : AcceptsAll before := fun ev he => hacc ev (by simp [he])
  rcases run_no_pending e before hb Nfs.new with ⟨o, s1, g⟩ | g
  · have g' : (nfsRun e .start before).2 = .running s1 none := congrArg (·.2) g
    rw [nfsRun_append] at hr
    simp only [nfsRun] at hr
    rw [g'] at h5 hr
    obtain ⟨q, hq, hqx, hm⟩ := (C81_call_iff d xid _).1 h2
    have hp : q.call.procedure = .nfsLookup ⟨name, ⟨fh⟩⟩ := by
      generalize q.call.procedure = pr at hm
      generalize q.call.program = pg at hm
      cases hm
      rfl
    have hst : nfsStep e ev.world ev.os ev.recv (.running s1 none) =
        nfsReply ev.os none q.xid peer (s1.lookup ev.world ⟨name, ⟨fh⟩⟩) := by
      rw [h1]
      simp only [nfsStep, hq, hp]
      rfl
    rw [hst] at h5 hr
    cases hs : ev.world.stat (pushPath s1.path name) with
    | none =>
      rw [lookup_missing _ ⟨name, ⟨fh⟩⟩ s1 hs] at h5
      exact nomatch h5
    | some m' =>
      cases ho : ev.world.openFile (pushPath s1.path name) with
      | none =>
        rw [lookup_unopenable _ ⟨name, ⟨fh⟩⟩ s1 m' hs ho] at h5
        exact nomatch h5
      | some f =>
        rw [lookup_found _ ⟨name, ⟨fh⟩⟩ s1 m' f hs ho] at h5 hr
        by_cases hd : Dated m'
        · obtain ⟨a, ha, hf⟩ := attributesOf_dated m' hd
          rw [ha] at h5 hr
          simp only [Outcome.bind, nfsReply, hx, udpSend, datagram_lookup _ m' a hf, if_true, List.cons.injEq,
            Prod.mk.injEq, and_true, hqx] at h5 hr
          obtain ⟨k1, k2⟩ := lookupReply_kind h5
          have hfile : m'.isFile = true := (hw ev (by simp) _ _ hs).2 (k2.trans h4)
          rw [hfile, if_pos rfl] at hr
          exact run_keeps_open e after _ s none p hr m.ino (by simp [k1])
        · rw [attributesOf_undated m' hd] at h5
          exact nomatch h5
  · have g' : (nfsRun e .start before).2 = .dead := g
    rw [g'] at h5
    exact nomatch h5
/-- C105, exactly: the files a handler has open are those for which it has answered a LOOKUP, each once,
however often it was looked up (as long as the handler runs, the OS takes its answers and there are only
regular files and directories). -/
theorem C105_open_exactly (e : Endian) (evs : List (NfsEvent F)) (hacc : AcceptsAll evs)
    (hw : ∀ ev ∈ evs, FilesAndDirs ev.world) (halive : (nfsRun e .start evs).2 ≠ .dead) :
    ∃ l, HasOpen (nfsRun e .start evs).2 l ∧ ∀ i, i ∈ l ↔ AnsweredFile e evs i := by
  rcases hasOpen_run e evs .start [] hasOpen_start with h1 | ⟨l, h1, -⟩
  · exact absurd h1 halive
  · rw [List.append_nil] at h1
    refine ⟨l, h1, fun i => ?_⟩
    cases hr : (nfsRun e .start evs).2 with
    | dead => exact absurd hr halive
    | running s p =>
      rw [hr] at h1
      exact ⟨fun hi => open_answered e evs hacc hw s p hr i ((h1.2 i).1 hi),
        fun hi => (h1.2 i).2 (answered_open e evs hacc hw i hi s p hr)⟩

/-- C40, exactly: a READ or GETATTR call is answered if and only if it bears the handle of a file for which a
LOOKUP was answered at this handler (as long as this runs, the OS takes its answers and can say something
about every open file). -/
theorem C40_answered_iff (evs : List (NfsEvent F)) (hacc : AcceptsAll evs)
    (hw : ∀ ev ∈ evs, FilesAndDirs ev.world) (halive : (nfsRun .little .start evs).2 ≠ .dead) (w : World F)
    (hstat : ∀ f, ∃ m, w.fstat f = some m ∧ Dated m)
    (hread : ∀ f o n, ∃ b, w.pread f o n = some b ∧ b.length ≤ n) (h : Hdr) (peer : Addr) (i : UInt64) :
    ((nfsStep .little w (fun _ _ _ => true) (.datagram (callDatagram h (.nfsGetattr (handleOf i))) peer)
        (nfsRun .little .start evs).2).1 ≠ [] ↔ AnsweredFile .little evs i) ∧
    ∀ o c t, ((nfsStep .little w (fun _ _ _ => true)
        (.datagram (callDatagram h (.nfsRead (handleOf i) o c t)) peer)
        (nfsRun .little .start evs).2).1 ≠ [] ↔ AnsweredFile .little evs i) := by
  rcases run_no_pending .little evs hacc Nfs.new with ⟨o, s, h1⟩ | h1
  · have hr : (nfsRun .little .start evs).2 = .running s none := congrArg (·.2) h1
    have hopen : AnsweredFile .little evs i ↔ s.handlers i ≠ none :=
      ⟨fun hi => answered_open .little evs hacc hw i hi s none hr,
        open_answered .little evs hacc hw s none hr i⟩
    have hden : Denotes (handleOf i) i := ⟨List.replicate 24 0, rfl, by simp⟩
    rw [hr, hopen]
    cases hk : s.handlers i with
    | none =>
      refine ⟨?_, fun o c t => ?_⟩
      · rw [stale_getattr w _ h peer _ i hden s none hk]
        simp
      · rw [stale_read w _ h peer _ i hden o c t s none hk]
        simp
    | some f =>
      obtain ⟨m, hm, hd⟩ := hstat f
      refine ⟨?_, fun o c t => ?_⟩
      · rw [getattr_step w h peer i s f hk m hm hd]
        simp
      · obtain ⟨b, hb, hl⟩ := hread f o.toNat c.toNat
        rw [C39_read_reply w (fun _ _ _ => true) h peer i o c t s f hk b hb hl m hm hd rfl]
        simp
  · exact absurd h1 halive

/-- C105 (full claim: however many tracks a player has loaded, the next one can be loaded).  Missing: the claim
is false (`C105_exhausted`).  What holds: after any history in which no more than the regular files with the
inodes `S` were there to be found, if the OS lets the handler have more files open than that, a LOOKUP of an
existing absolute path is answered. -/
theorem C105_served_partial (e : Endian) (evs : List (NfsEvent F)) (hd : ∀ ev ∈ evs, DatedWorld ev.world)
    (hr : ∀ ev ∈ evs, ∀ d peer, ev.recv = .datagram d peer → ¬ IsReply d) (hacc : AcceptsAll evs)
    (S : List UInt64) (hS : ∀ ev ∈ evs, ∀ p m, ev.world.stat p = some m → m.isFile = true → m.ino ∈ S)
    (limit : Nat) (hlim : S.length < limit)
    (w : World F) (h : Hdr) (peer : Addr) (fh : Bytes) (name : Str) (hh : fh.length = 32)
    (hn : (utf16le name).length < 4294967296) (habs : name.head? = some '/') (m : Meta) (f : F)
    (hs : w.stat name = some m) (hdm : Dated m)
    (ho : ∀ l, HasOpen (nfsRun e .start evs).2 l → l.length < limit → w.openFile name = some f) :
    (nfsStep e w (fun _ _ _ => true) (.datagram (callDatagram h (.nfsLookup fh name)) peer)
      (nfsRun e .start evs).2).1 = [(lookupReply h.xid m, peer)] := by
  refine C42_still_serves_partial e evs hd hr hacc w h peer fh name hh hn habs m f hs hdm ?_
  rcases hasOpen_run e evs .start [] hasOpen_start with h1 | ⟨l, h1, h2⟩
  · exact ho [] (h1 ▸ hasOpen_dead) (Nat.lt_of_le_of_lt (Nat.zero_le _) hlim)
  · rw [List.append_nil] at h1
    refine ho l h1 (Nat.lt_of_le_of_lt (length_le_of_pool l S h1.1 fun i hi => ?_) hlim)
    obtain ⟨ev, he, p, m', f', k1, k2, k3, -⟩ := h2 i hi
    exact k3 ▸ hS ev he p m' k1 k2

theorem limited_run {e : Endian} {limit : Nat} {evs : List (NfsEvent F)} {ev : NfsEvent F} {t : NfsTask F}
    (h : Limited e limit t (evs ++ [ev])) {l : List UInt64} (hl : HasOpen (nfsRun e t evs).2 l)
    (hn : limit ≤ l.length) (p : Str) : ev.world.openFile p = none := by
  induction evs generalizing t with
  | nil => exact h.1 l hl hn p
  | cons x xs ih => exact ih h.2 hl

/-- C105, the negation: once the handler has as many files open as the OS allows, whatever arrives afterwards,
no LOOKUP is answered any more, be it of a file or of a directory, by whatever name. -/
theorem C105_exhausted (e : Endian) (limit : Nat) (evs evs' : List (NfsEvent F)) (ev : NfsEvent F)
    (hlim : Limited e limit .start (evs ++ evs' ++ [ev])) (l : List UInt64)
    (hl : HasOpen (nfsRun e .start evs).2 l) (hn : limit ≤ l.length) (d : Bytes) (peer : Addr) (xid : UInt32)
    (fh : Bytes) (name : Str) (hev : ev.recv = .datagram d peer) (hc : IsCall d xid (.nfsLookup fh name)) :
    (nfsStep e ev.world ev.os ev.recv (nfsRun e .start (evs ++ evs')).2).1 = [] := by
  have hrun : (nfsRun e .start (evs ++ evs')).2 = .dead ∨
      ∃ l', HasOpen (nfsRun e .start (evs ++ evs')).2 l' ∧ limit ≤ l'.length := by
    rw [nfsRun_append]
    rcases hasOpen_run e evs' _ l hl with h1 | ⟨new, h1, -⟩
    · exact .inl h1
    · exact .inr ⟨_, h1, by rw [List.length_append]; omega⟩
  rcases hrun with h1 | ⟨l', h1, h2⟩
  · rw [h1]
    rfl
  · have hno := limited_run hlim h1 h2
    cases ht : (nfsRun e .start (evs ++ evs')).2 with
    | dead => rfl
    | running s p =>
      obtain ⟨q, hq, -, hm⟩ := (C81_call_iff d xid _).1 hc
      rw [hev]
      simp only [nfsStep, hq]
      have hp : q.call.procedure = .nfsLookup ⟨name, ⟨fh⟩⟩ := by
        generalize q.call.procedure = pr at hm
        generalize q.call.program = pg at hm
        cases hm
        rfl
      rw [hp]
      show (nfsReply _ _ _ _ (s.lookup ev.world ⟨name, ⟨fh⟩⟩)).1 = []
      cases hs : ev.world.stat (pushPath s.path name) with
      | none => rw [lookup_missing _ ⟨name, ⟨fh⟩⟩ s hs]; rfl
      | some m => rw [lookup_unopenable _ ⟨name, ⟨fh⟩⟩ s m hs (hno _)]; rfl

/-- The track asked for is a regular file in the root directory that can be opened. -/
structure Loadable (w : World F) (y : LookupReq F × Meta × F) : Prop where
  world : y.1.world = w
  name : Component y.1.name
  handle : y.1.fh.length = 32
  stat : w.stat ('/' :: y.1.name) = some y.2.1
  file : y.2.1.isFile = true
  dated : Dated y.2.1
  opens : w.openFile ('/' :: y.1.name) = some y.2.2

theorem tracks_run (e : Endian) (limit : Nat) (w : World F) (last : NfsEvent F)
    (hlast : ∀ p, last.world.openFile p = none) (ys : List (LookupReq F × Meta × F))
    (hy : ∀ y ∈ ys, Loadable w y) (s : Nfs F) (hs : s.path = ['/']) (l : List UInt64)
    (hl : HasOpen (.running s none) l) (hlen : l.length + ys.length ≤ limit)
    (hnd : (ys.map fun y => y.2.1.ino).Nodup) (hdis : ∀ y ∈ ys, y.2.1.ino ∉ l) :
    Limited e limit (.running s none) (ys.map (fun y => y.1.event) ++ [last]) ∧
    ∃ s', nfsRun e (.running s none) (ys.map fun y => y.1.event) =
        (ys.map fun y => (lookupReply y.1.hdr.xid y.2.1, y.1.peer), .running s' none) ∧ s'.path = ['/'] ∧
      HasOpen (.running s' none) ((ys.map fun y => y.2.1.ino).reverse ++ l) := by
  induction ys generalizing s l with
  | nil => exact ⟨⟨fun _ _ _ => hlast, trivial⟩, s, rfl, hs, hl⟩
  | cons y ys ih =>
    have ht := hy y List.mem_cons_self
    have hpush : pushPath s.path y.1.name = '/' :: y.1.name := by
      rw [hs]
      unfold pushPath
      have : y.1.name.head? ≠ some '/' := by
        intro h
        have h1 := List.mem_of_mem_head? h
        exact ht.name.2.1 h1
      rw [if_neg this]
      rfl
    have hst := step_lookup e y.1 s y.2.1 y.2.2 ht.name ht.handle (by rw [ht.world, hpush]; exact ht.stat)
      ht.dated (by rw [ht.world, hpush]; exact ht.opens)
    rw [if_pos ht.file] at hst
    have hnd' := List.nodup_cons.1 hnd
    have hino : y.2.1.ino ∉ l := hdis y List.mem_cons_self
    have hl' : HasOpen (.running (⟨['/'], fun j => if j = y.2.1.ino then some y.2.2 else s.handlers j⟩ : Nfs F)
        none) (y.2.1.ino :: l) := by
      refine ⟨List.nodup_cons.2 ⟨hino, hl.1⟩, fun i => ?_⟩
      by_cases hi : i = y.2.1.ino
      · simp [hi]
      · simp only [List.mem_cons, hi, false_or, if_false]
        exact hl.2 i
    obtain ⟨h1, s', h2, h3, h4⟩ := ih (fun z hz => hy z (List.mem_cons_of_mem _ hz)) _ rfl _ hl'
      (by simp only [List.length_cons] at hlen ⊢; omega) hnd'.2 (fun z hz => by
        rw [List.mem_cons, not_or]
        exact ⟨fun h => hnd'.1 (by
          show y.2.1.ino ∈ _
          rw [← h]
          exact List.mem_map_of_mem (f := fun y => y.2.1.ino) hz),
          hdis z (List.mem_cons_of_mem _ hz)⟩)
    refine ⟨⟨fun l' h5 h6 => ?_, ?_⟩, s', ?_, h3, by simpa using h4⟩
    · have := hasOpen_length h5 hl
      simp only [List.length_cons] at hlen
      omega
    · rw [hst]
      exact h1
    · simp only [List.map_cons, nfsRun, hst, h2]
      rfl

/-- C105, the negation: whatever the limit is, a player that has loaded that many tracks (different regular files)
gets no answer when it looks up one more, though that is there and could have been opened before. -/
theorem C105_one_too_many (e : Endian) (limit : Nat) (w : World F) (ys : List (LookupReq F × Meta × F))
    (y : LookupReq F × Meta × F) (hlen : ys.length = limit) (hy : ∀ z ∈ y :: ys, Loadable w z)
    (hnd : (ys.map fun z => z.2.1.ino).Nodup) (evs : List (NfsEvent F))
    (hevs : evs = ys.map (fun z => z.1.event) ++ [({ y.1 with world := exhausted w } : LookupReq F).event]) :
    Limited e limit .start evs ∧
    (nfsRun e .start evs).1 = ys.map fun z => (lookupReply z.1.hdr.xid z.2.1, z.1.peer) := by
  subst hevs
  obtain ⟨h1, s', h2, h3, h4⟩ := tracks_run e limit w
    ({ y.1 with world := exhausted w } : LookupReq F).event (fun _ => rfl) ys
    (fun z hz => hy z (List.mem_cons_of_mem _ hz)) Nfs.new rfl [] hasOpen_start (by simpa using Nat.le_of_eq hlen)
    hnd (fun _ _ h => nomatch h)
  refine ⟨h1, ?_⟩
  have ht := hy y List.mem_cons_self
  have h5 := C105_exhausted e limit (ys.map fun z => z.1.event) []
    ({ y.1 with world := exhausted w } : LookupReq F).event (by rw [List.append_nil]; exact h1) _
    (by rw [NfsTask.start, h2]; exact h4) (by simp [hlen]) _ y.1.peer y.1.hdr.xid y.1.fh y.1.name rfl
    (isCall_callDatagram y.1.hdr _ _ _ (.lookup y.1.fh y.1.name ht.handle ht.name.2.2) (by intro p; simp))
  rw [nfsRun_append]
  rw [List.append_nil] at h5
  simp only [nfsRun, h5, List.append_nil]
  rw [NfsTask.start, h2]

/-! ## Non-vacuity -/

/-- Files with names of one letter in the root directory. -/
def letterWorld : World Nat where
  stat p := if p.length = 2 then some (sampleMeta (UInt64.ofNat (p.getD 1 'a').toNat) true) else none
  openFile p := if p.length = 2 then some (p.getD 1 'a').toNat else none
  fstat f := some (sampleMeta (UInt64.ofNat f) true)
  pread _ _ _ := some []

/-- A LOOKUP of one of them. -/
def letterReq (c : Char) : LookupReq Nat × Meta × Nat :=
  (⟨letterWorld, sampleHdr, ⟨1, 2⟩, List.replicate 32 0, [c]⟩, sampleMeta (UInt64.ofNat c.toNat) true, c.toNat)

theorem letter_loadable {c : Char} (hc : c ≠ '/') (hu : (utf16le [c]).length < 4294967296) :
    Loadable letterWorld (letterReq c) :=
  ⟨rfl, ⟨by simp [letterReq], by simpa [letterReq] using fun h => hc h.symm, hu⟩, rfl, rfl, rfl,
    dated_sampleMeta _ _, rfl⟩

example :=
  C105_one_too_many .little 3 letterWorld [letterReq 'a', letterReq 'b', letterReq 'c'] (letterReq 'd') rfl
    (by
      intro z hz
      simp only [List.mem_cons, List.not_mem_nil, or_false] at hz
      rcases hz with rfl | rfl | rfl | rfl <;> exact letter_loadable (by decide) (by decide))
    (by decide) _ rfl
example : ∃ l t, HasOpen (t : NfsTask Nat) l ∧ l = [97] ∧
    (nfsStep .little (exhausted letterWorld) (fun _ _ _ => true)
      (.datagram (callDatagram sampleHdr (.nfsLookup (List.replicate 32 0) ['b'])) ⟨1, 2⟩) t).1 = [] := by
  obtain ⟨h1, s', h2, -, h3⟩ := tracks_run .little 1 letterWorld
    ({ (letterReq 'b').1 with world := exhausted letterWorld } : LookupReq Nat).event (fun _ => rfl)
    [letterReq 'a']
    (by intro z hz; cases List.mem_singleton.1 hz; exact letter_loadable (by decide) (by decide))
    Nfs.new rfl [] hasOpen_start (by decide) (by decide) (fun _ _ h => nomatch h)
  refine ⟨_, _, h3, rfl, ?_⟩
  have h4 : nfsRun .little .start [(letterReq 'a').1.event] = _ := h2
  have h5 := C105_exhausted .little 1 [(letterReq 'a').1.event] [] _ h1 _
    (by rw [h4]; exact h3) (by decide) _
    ⟨1, 2⟩ _ (List.replicate 32 0) ['b'] rfl
    (isCall_callDatagram _ _ _ _ (.lookup _ _ (by decide) (by decide)) (by intro p; simp))
  rw [List.append_nil, h4] at h5
  exact h5
example := C105_never_closed .little [(letterReq 'a').1.event] [(letterReq 'b').1.event]
  (by
    obtain ⟨-, s', h, -⟩ := tracks_run .little 2 letterWorld
      ({ (letterReq 'a').1 with world := exhausted letterWorld } : LookupReq Nat).event (fun _ => rfl)
      [letterReq 'a', letterReq 'b']
      (by
        intro z hz
        simp only [List.mem_cons, List.not_mem_nil, or_false] at hz
        rcases hz with rfl | rfl <;> exact letter_loadable (by decide) (by decide))
      Nfs.new rfl [] hasOpen_start (by decide) (by decide) (fun _ _ h => nomatch h)
    intro hd
    have h2 : nfsRun .little .start ([(letterReq 'a').1.event] ++ [(letterReq 'b').1.event]) = _ := h
    rw [h2] at hd
    exact nomatch hd)
example := C105_served_partial .little [(sampleReq ['a']).event]
  (by
    intro ev h
    cases List.mem_singleton.1 h; exact datedWorld_sampleWorld)
  (by
    intro ev h d peer hd
    cases List.mem_singleton.1 h; cases hd; exact fun hr => absurd hr.2 (by decide))
  (by
    intro ev h
    cases List.mem_singleton.1 h; rfl)
  [3, 4]
  (by
    intro ev h p m hs hf
    cases List.mem_singleton.1 h
    change sampleWorld.stat p = some m at hs
    unfold sampleWorld at hs
    simp only at hs
    repeat' split at hs
    all_goals cases hs
    all_goals first | (exact absurd hf (by decide)) | decide)
  3 (by decide) sampleWorld sampleHdr ⟨1, 2⟩ (List.replicate 32 0) ['/', 'x'] (by decide) (by decide)
  (by decide) (sampleMeta 4 true) 4 (by decide) (dated_sampleMeta _ _) (fun _ _ _ => by decide)

theorem filesAndDirs_sample : FilesAndDirs sampleWorld := by
  intro p m h
  simp only [sampleWorld] at h
  repeat' split at h
  all_goals first
    | (cases h; decide)
    | exact nomatch h

/-- The events of the sample walk `a`, `x`. -/
def sampleWalkEvents : List (NfsEvent Nat) := [(sampleReq ['a']).event, (sampleReq ['x']).event]

theorem sampleWalkEvents_run : ∃ out, nfsRun .little .start sampleWalkEvents =
    (out, .running ⟨['/'], fun j => if j = 3 then some 3 else none⟩ none) := by
  obtain ⟨out, _, h, _⟩ := C34_path_walk .little _ _ _ sampleWalk (Nfs.new : Nfs Nat) rfl
  exact ⟨out, h⟩

/-- After the walk the handler has the file with inode 3 open and knows only its handle; a directory it
passed through is not open. -/
example : (∃ l, HasOpen (nfsRun .little .start sampleWalkEvents).2 l ∧
      ∀ i, i ∈ l ↔ AnsweredFile .little sampleWalkEvents i) ∧
    AnsweredFile .little sampleWalkEvents 3 ∧ ¬ AnsweredFile .little sampleWalkEvents 2 ∧
    (nfsStep .little fullWorld (fun _ _ _ => true)
      (.datagram (callDatagram sampleHdr (.nfsGetattr (handleOf 3))) ⟨1, 2⟩)
      (nfsRun .little .start sampleWalkEvents).2).1 ≠ [] := by
  obtain ⟨out, hr⟩ := sampleWalkEvents_run
  have hacc : AcceptsAll sampleWalkEvents := by
    intro ev he
    simp only [sampleWalkEvents, List.mem_cons, List.not_mem_nil, or_false] at he
    rcases he with rfl | rfl <;> rfl
  have hw : ∀ ev ∈ sampleWalkEvents, FilesAndDirs ev.world := by
    intro ev he
    simp only [sampleWalkEvents, List.mem_cons, List.not_mem_nil, or_false] at he
    rcases he with rfl | rfl <;> exact filesAndDirs_sample
  have halive : (nfsRun .little .start sampleWalkEvents).2 ≠ .dead := by
    rw [hr]
    exact (nomatch ·)
  obtain ⟨l, h1, h2⟩ := C105_open_exactly .little sampleWalkEvents hacc hw halive
  have h3 : ∀ i, i ∈ l ↔ (if i = 3 then some 3 else none : Option Nat) ≠ none := by
    have := h1.2
    rwa [hr] at this
  have h4 : AnsweredFile .little sampleWalkEvents 3 := (h2 3).1 ((h3 3).2 (by decide))
  refine ⟨⟨l, h1, h2⟩, h4, fun h => absurd ((h3 2).1 ((h2 2).2 h)) (by decide), ?_⟩
  exact (C40_answered_iff sampleWalkEvents hacc hw halive fullWorld
    (fun f => ⟨_, rfl, dated_sampleMeta _ _⟩)
    (fun f o n => ⟨_, rfl, by simp only [List.length_take]; omega⟩) sampleHdr ⟨1, 2⟩ 3).1.2 h4

end PDJ
