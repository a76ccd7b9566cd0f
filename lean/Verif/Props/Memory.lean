import Verif.Props.Pipes
import Verif.Props.Volume
import Verif.Lemmas.Packets
import Verif.Spec.Memory

/-!
# Property C117: a short request and the memory of the process
-/

namespace PDJ

open Spec

variable {F : Type}

theorem le64_ofBe64 (b0 b1 b2 b3 b4 b5 b6 b7 : UInt8) :
    le64 (ofBe64 b7 b6 b5 b4 b3 b2 b1 b0) = [b0, b1, b2, b3, b4, b5, b6, b7] := by
  have h0 := b0.toNat_lt
  have h1 := b1.toNat_lt
  have h2 := b2.toNat_lt
  have h3 := b3.toNat_lt
  have h4 := b4.toNat_lt
  have h5 := b5.toNat_lt
  have h6 := b6.toNat_lt
  have h7 := b7.toNat_lt
  simp only [le64, be64, ofBe64, List.reverse_cons, List.reverse_nil, List.nil_append, List.cons_append,
    UInt64.toNat_ofNat', List.cons.injEq, and_true]
  refine ⟨?_, ?_, ?_, ?_, ?_, ?_, ?_, ?_⟩ <;>
    (apply UInt8.toNat.inj; simp only [UInt8.toNat_ofNat']; omega)

/-- The inode number in a handle of a call. -/
theorem ino_iff (fh : Bytes) (h : fh.length = 32) (i : UInt64) :
    FileHandle.ino .little ⟨fh⟩ = .ok i ↔ fh.take 8 = le64 i := by
  match fh, h with
  | b0 :: b1 :: b2 :: b3 :: b4 :: b5 :: b6 :: b7 :: l, _ =>
    simp only [FileHandle.ino, Outcome.ok.injEq]
    constructor
    · rintro rfl
      rw [le64_ofBe64]
      rfl
    · intro e
      obtain ⟨c0, c1, c2, c3, c4, c5, c6, c7, -, h2, h3⟩ := le64_cons i
      rw [h2] at e
      simp only [List.take_succ_cons, List.take_zero, List.cons.injEq, and_true] at e
      obtain ⟨rfl, rfl, rfl, rfl, rfl, rfl, rfl, rfl⟩ := e
      exact h3

theorem readBuffer_pos {st : Nfs F} {a : NfsRead} (h : 0 < readBuffer .little st a) :
    ∃ ino f, a.fhandle.ino .little = .ok ino ∧ st.handlers ino = some f ∧ readBuffer .little st a = a.count.toNat := by
  unfold readBuffer at h ⊢
  cases hi : a.fhandle.ino .little with
  | panic => rw [hi] at h; exact absurd h (by simp)
  | ok ino =>
    rw [hi] at h
    simp only at h ⊢
    cases hf : st.handlers ino with
    | none => rw [hf] at h; exact absurd h (by simp)
    | some f => exact ⟨ino, f, rfl, hf, rfl⟩

theorem word_ok {d r : Bytes} {i : Nat} {x : UInt32} :
    P.beU32 (d.drop i) = .ok r x ↔ i + 4 ≤ d.length ∧ wordAt i d = x.toNat ∧ r = d.drop (i + 4) := u32_at

theorem verifier_bind {α : Type} (f : RpcAuth → Parser α) (a n : UInt32) (ha : a.toNat ≤ 1) (r : Bytes) :
    ∃ v, (RpcAuth.decode >>= f) (be32 a ++ (be32 n ++ r)) = f v r := by
  have : a = 0 ∨ a = 1 := by
    rcases Nat.lt_or_ge a.toNat 1 with h | h
    · exact .inl (UInt32.toNat.inj (by simp only [UInt32.toNat_zero]; omega))
    · exact .inr (UInt32.toNat.inj (by simp only [UInt32.toNat_one]; omega))
  rcases this with rfl | rfl
  · exact ⟨.null, auth_null_bind f n r⟩
  · refine ⟨.unix, bind_apply_ok f ?_⟩
    unfold RpcAuth.decode
    rw [beU32_bind, beU32_bind]
    rfl

theorem textBuffer_announces {d : Bytes} {n : Nat} (h : AnnouncesText d n) : textBuffer d = 2 * (n / 2) := by
  obtain ⟨h4, h52, h⟩ := h
  have hl : 64 ≤ d.length := by omega
  obtain ⟨w0, e0, k0⟩ := word_split d 0 (by omega)
  obtain ⟨w1, e1, k1⟩ := word_split d 4 (by omega)
  obtain ⟨w2, e2, k2⟩ := word_split d 8 (by omega)
  obtain ⟨w3, e3, k3⟩ := word_split d 12 (by omega)
  obtain ⟨w4, e4, k4⟩ := word_split d 16 (by omega)
  obtain ⟨w5, e5, k5⟩ := word_split d 20 (by omega)
  obtain ⟨c0, e6, _⟩ := word_split d 24 (by omega)
  obtain ⟨c1, e7, _⟩ := word_split d 28 (by omega)
  obtain ⟨c2, e8, _⟩ := word_split d 32 (by omega)
  obtain ⟨c3, e9, _⟩ := word_split d 36 (by omega)
  obtain ⟨c4, e10, _⟩ := word_split d 40 (by omega)
  obtain ⟨c5, e11, _⟩ := word_split d 44 (by omega)
  obtain ⟨c6, e12, _⟩ := word_split d 48 (by omega)
  obtain ⟨a, e13, k13⟩ := word_split d 52 (by omega)
  obtain ⟨l, e14, _⟩ := word_split d 56 (by omega)
  have f1 : w1 = 0 := UInt32.toNat.inj (k1.symm.trans h4)
  have hd : d = be32 w0 ++ (be32 0 ++ (be32 w2 ++ (be32 w3 ++ (be32 w4 ++ (be32 w5 ++
      (be32 c0 ++ (be32 c1 ++ (be32 c2 ++ (be32 c3 ++ (be32 c4 ++ (be32 c5 ++ (be32 c6 ++
      (be32 a ++ (be32 l ++ d.drop 60)))))))))))))) := by
    rw [← f1, ← e14, ← e13, ← e12, ← e11, ← e10, ← e9, ← e8, ← e7, ← e6, ← e5, ← e4, ← e3, ← e2, ← e1, ← e0,
      List.drop_zero]
  have hreq : ∀ prog : RpcProgram, w3 = prog.num →
      RpcRequest.reserve d = RpcProcedure.reserve prog w5 (d.drop 60) := by
    intro prog hp
    have hprog : ∀ f : RpcProgram × UInt32 → Parser Nat, ∀ r,
        (RpcProgram.decode >>= f) (be32 w3 ++ (be32 w4 ++ r)) = f (prog, w4) r := by
      intro f r
      apply bind_apply_ok
      unfold RpcProgram.decode
      rw [beU32_bind, beU32_bind, hp]
      cases prog <;> rfl
    generalize d.drop 60 = rest at hd ⊢
    unfold RpcRequest.reserve
    rw [hd, beU32_bind, beU32_bind, if_pos rfl]
    unfold RpcCall.reserve
    rw [beU32_bind, hprog, beU32_bind, credentials_bind]
    obtain ⟨v, e⟩ := verifier_bind (fun _ => RpcProcedure.reserve prog w5) a l (k13 ▸ h52) rest
    exact e
  rcases h with ⟨h12, h20, h64, rfl⟩ | ⟨h12, h20, h96, rfl⟩
  · have f5 : w5 = 1 := UInt32.toNat.inj (k5.symm.trans h20)
    obtain ⟨w, e, k⟩ := word_split d 60 (by omega)
    unfold textBuffer
    rw [hreq .mount (UInt32.toNat.inj (k3.symm.trans h12)), f5]
    show (match MountMnt.reserve (d.drop 60) with | .ok _ n => n | _ => 0) = _
    unfold MountMnt.reserve
    rw [e, beU32_bind, k]
    rfl
  · have f5 : w5 = 4 := UInt32.toNat.inj (k5.symm.trans h20)
    obtain ⟨w, e, k⟩ := word_split d 92 (by omega)
    unfold textBuffer
    rw [hreq .nfs (UInt32.toNat.inj (k3.symm.trans h12)), f5]
    show (match NfsLookup.reserve (d.drop 60) with | .ok _ n => n | _ => 0) = _
    unfold NfsLookup.reserve
    rw [show d.drop 60 = (d.drop 60).take 32 ++ d.drop 92 by
      rw [show (92 : Nat) = 60 + 32 from rfl, ← List.drop_drop, List.take_append_drop],
      fileHandle_bind _ _ _ (by simp; omega), e, beU32_bind, k]
    rfl

theorem textBuffer_pos {d : Bytes} (h : 0 < textBuffer d) : ∃ n, AnnouncesText d n := by
  unfold textBuffer at h
  split at h
  · rename_i r n hr
    unfold RpcRequest.reserve at hr
    obtain ⟨_, _, h0, hr⟩ := bind_eq_ok.1 hr
    obtain ⟨-, -, rfl⟩ := word_ok (i := 0).1 h0
    obtain ⟨_, t, h0, hr⟩ := bind_eq_ok.1 hr
    obtain ⟨-, k4, rfl⟩ := word_ok.1 h0
    split at hr
    · rename_i ht
      subst ht
      unfold RpcCall.reserve at hr
      obtain ⟨_, _, h0, hr⟩ := bind_eq_ok.1 hr
      obtain ⟨-, -, rfl⟩ := word_ok.1 h0
      obtain ⟨r1, pv, h0, hr⟩ := bind_eq_ok.1 hr
      unfold RpcProgram.decode at h0
      obtain ⟨_, w, h1, h0⟩ := bind_eq_ok.1 h0
      obtain ⟨-, k12, rfl⟩ := word_ok.1 h1
      obtain ⟨_, _, h1, h0⟩ := bind_eq_ok.1 h0
      obtain ⟨-, -, rfl⟩ := word_ok.1 h1
      have hpv : wordAt 12 d = pv.1.num.toNat ∧ r1 = d.drop 20 := by
        split at h0
        · rename_i hw; cases h0; exact ⟨by rw [k12, hw]; rfl, rfl⟩
        · split at h0
          · rename_i hw; cases h0; exact ⟨by rw [k12, hw]; rfl, rfl⟩
          · split at h0
            · rename_i hw; cases h0; exact ⟨by rw [k12, hw]; rfl, rfl⟩
            · exact nomatch h0
      obtain ⟨hpv, rfl⟩ := hpv
      obtain ⟨_, p, h1, hr⟩ := bind_eq_ok.1 hr
      obtain ⟨-, k20, rfl⟩ := word_ok.1 h1
      obtain ⟨_, _, h1, hr⟩ := bind_eq_ok.1 hr
      unfold RpcCredentials.decode at h1
      obtain ⟨_, _, h2, h1⟩ := bind_eq_ok.1 h1
      obtain ⟨-, -, rfl⟩ := word_ok.1 h2
      obtain ⟨_, _, h2, h1⟩ := bind_eq_ok.1 h1
      obtain ⟨-, -, rfl⟩ := word_ok.1 h2
      obtain ⟨_, _, h2, h1⟩ := bind_eq_ok.1 h1
      obtain ⟨-, -, rfl⟩ := word_ok.1 h2
      obtain ⟨_, _, h2, h1⟩ := bind_eq_ok.1 h1
      obtain ⟨-, -, rfl⟩ := word_ok.1 h2
      obtain ⟨_, _, h2, h1⟩ := bind_eq_ok.1 h1
      obtain ⟨-, -, rfl⟩ := word_ok.1 h2
      obtain ⟨_, _, h2, h1⟩ := bind_eq_ok.1 h1
      obtain ⟨-, -, rfl⟩ := word_ok.1 h2
      obtain ⟨_, _, h2, h1⟩ := bind_eq_ok.1 h1
      obtain ⟨-, -, rfl⟩ := word_ok.1 h2
      obtain ⟨rfl, -⟩ := PRes.ok.inj h1
      obtain ⟨r2, v, h1, hrf⟩ := bind_eq_ok.1 hr
      unfold RpcAuth.decode at h1
      obtain ⟨_, w', h2, h1⟩ := bind_eq_ok.1 h1
      obtain ⟨-, k52, rfl⟩ := word_ok.1 h2
      obtain ⟨_, _, h2, h1⟩ := bind_eq_ok.1 h1
      obtain ⟨-, -, rfl⟩ := word_ok.1 h2
      have hv : wordAt 52 d ≤ 1 ∧ r2 = d.drop 60 := by
        split at h1
        · rename_i hw; cases h1; exact ⟨by rw [k52, hw]; decide, rfl⟩
        · split at h1
          · rename_i hw; cases h1; exact ⟨by rw [k52, hw]; decide, rfl⟩
          · exact nomatch h1
      obtain ⟨hv, rfl⟩ := hv
      obtain ⟨prog, pv⟩ := pv
      cases prog with
      | portmap => cases hrf; exact absurd h (by decide)
      | nfs =>
        simp only [RpcProcedure.reserve] at hrf
        split at hrf
        · rename_i hp
          subst hp
          unfold NfsLookup.reserve at hrf
          obtain ⟨_, fh, h1, hrf⟩ := bind_eq_ok.1 hrf
          obtain ⟨h2, h3⟩ := fileHandle_eq_ok.1 h1
          obtain ⟨_, l, h4, hrf⟩ := bind_eq_ok.1 hrf
          have hlen := congrArg List.length h3
          have := P.beU32_eq_ok.1 h4
          subst this
          simp at hlen
          exact ⟨_, k4, hv, .inr ⟨hpv, k20, by omega, rfl⟩⟩
        · cases hrf; exact absurd h (by decide)
      | mount =>
        simp only [RpcProcedure.reserve] at hrf
        split at hrf
        · rename_i hp
          subst hp
          unfold MountMnt.reserve at hrf
          obtain ⟨_, l, h4, hrf⟩ := bind_eq_ok.1 hrf
          obtain ⟨h5, -, -⟩ := word_ok.1 h4
          exact ⟨_, k4, hv, .inl ⟨hpv, k20, by omega, rfl⟩⟩
        · cases hrf; exact absurd h (by decide)
    · cases hr
      exact absurd h (by decide)
  · exact absurd h (by decide)

/-- A READ call does not announce a text. -/
theorem announces_not_read {d : Bytes} {n : Nat} (h : AnnouncesText d n) {xid : UInt32} {fh : Bytes}
    {o c t : UInt32} (hc : IsCall d xid (.nfsRead fh o c t)) : False := by
  have h20 : wordAt 20 d = 6 := hc.proc
  obtain ⟨-, -, ⟨-, h, -⟩ | ⟨-, h, -⟩⟩ := h <;> omega

theorem bufferFor_some {s : System F} {x : SysAction F} (h : 0 < bufferFor .little s x) :
    (∃ p ino, ReadArrives x p ino (bufferFor .little s x) ∧ FileKnown s p ino) ∨
      ∃ d n, ReachesRpc s x d ∧ AnnouncesText d n ∧ bufferFor .little s x = 2 * (n / 2) := by
  have htext : ∀ d, ReachesRpc s x d → 0 < textBuffer d → bufferFor .little s x = textBuffer d →
      ∃ d n, ReachesRpc s x d ∧ AnnouncesText d n ∧ bufferFor .little s x = 2 * (n / 2) := by
    intro d hd hp e
    obtain ⟨n, hn⟩ := textBuffer_pos hp
    exact ⟨d, n, hd, hn, e.trans (textBuffer_announces hn)⟩
  cases x with
  | portmap os bound r =>
    cases r with
    | ioError => exact absurd h (by simp [bufferFor])
    | datagram d peer =>
      have e : bufferFor .little s (.portmap os bound (.datagram d peer)) =
          if s.services.rpc.portmap then textBuffer d else 0 := rfl
      by_cases hp : s.services.rpc.portmap = true
      · rw [if_pos hp] at e
        exact .inr (htext d (.inl ⟨os, bound, peer, rfl, hp⟩) (e ▸ h) e)
      · rw [if_neg hp] at e
        omega
  | port p ev =>
    obtain ⟨w, os, rc⟩ := ev
    cases rc with
    | ioError => exact absurd h (by simp [bufferFor])
    | datagram d peer =>
      have hfl := find_listener p s.services.rpc.tasks
      cases hz : s.services.rpc.tasks.find? (fun t => t.1 = p && t.2.live) with
      | none =>
        simp only [bufferFor, hz] at h
        exact absurd h (by simp)
      | some y =>
        rw [hz] at hfl
        have hd : ReachesRpc s (.port p ⟨w, os, .datagram d peer⟩) d :=
          .inr ⟨p, _, peer, rfl, rfl, by rw [← hfl]; exact fun h => nomatch h⟩
        obtain ⟨z, y⟩ := y
        by_cases hrd : ∃ st pending q a, y = .nfs (.running st pending) ∧ rpcFrame d = .request q ∧
            q.call.procedure = .nfsRead a
        · obtain ⟨st, pending, q, a, rfl, hq, ha⟩ := hrd
          have e : bufferFor .little s (.port p ⟨w, os, .datagram d peer⟩) = readBuffer .little st a := by
            simp only [bufferFor, hz, hq, ha]
          obtain ⟨ino, f, h1, h2, h3⟩ := readBuffer_pos (e ▸ h)
          obtain ⟨pr, hc, hm⟩ := request_isCall hq
          rw [ha] at hm
          generalize q.call.program = g at hm
          refine .inl ⟨p, ino, ?_, ⟨st, pending, f, hfl.symm, h2⟩⟩
          cases hm with
          | read fh o c t hlen =>
            exact ⟨_, d, peer, q.xid, fh, o, c, t, rfl, rfl, hc, (ino_iff fh hlen ino).1 h1, e.trans h3⟩
        · have e : bufferFor .little s (.port p ⟨w, os, .datagram d peer⟩) = textBuffer d := by
            simp only [bufferFor, hz]
            split
            · rename_i z' st pending he
              injection he with he
              injection he with he1 he2
              split
              · rename_i q hq
                split
                · rename_i a ha
                  exact absurd ⟨st, pending, q, a, he2, hq, ha⟩ hrd
                · rfl
              · rfl
            · rfl
            · rename_i he
              exact nomatch he
          exact .inr (htext d hd (e ▸ h) e)
  | _ => exact absurd h (by simp [bufferFor])

theorem bufferFor_text {s : System F} {x : SysAction F} {d : Bytes} {n : Nat} (hx : ReachesRpc s x d)
    (hn : AnnouncesText d n) : bufferFor .little s x = 2 * (n / 2) := by
  rw [← textBuffer_announces hn]
  rcases hx with ⟨os, bound, peer, rfl, hp⟩ | ⟨p, ⟨w, os, rc⟩, peer, rfl, hr, hl⟩
  · simp only [bufferFor, hp, if_true]
  · have hr : rc = .datagram d peer := hr
    subst hr
    have hfl := find_listener p s.services.rpc.tasks
    cases hz : s.services.rpc.tasks.find? (fun t => t.1 = p && t.2.live) with
    | none =>
      rw [hz] at hfl
      exact absurd hfl.symm hl
    | some y =>
      simp only [bufferFor, hz]
      split
      · split
        · rename_i q hq
          split
          · rename_i a ha
            obtain ⟨pr, hc, hm⟩ := request_isCall hq
            rw [ha] at hm
            generalize q.call.program = g at hm
            cases hm with
            | read fh o c t hlen => exact (announces_not_read hn hc).elim
          · rfl
        · rfl
      · rfl
      · rename_i he
        exact nomatch he

theorem bufferFor_arrives {s : System F} {x : SysAction F} {p : UInt16} {ino : UInt64} {n : Nat}
    (ha : ReadArrives x p ino n) (hl : FileKnown s p ino) : bufferFor .little s x = n := by
  obtain ⟨ev, d, peer, xid, fh, o, c, t, rfl, hr, hc, hi, rfl⟩ := ha
  obtain ⟨st, pending, f, hl, hf⟩ := hl
  obtain ⟨q, hq, -, hm⟩ := (C81_call_iff _ _ _).1 hc
  have hfl := find_listener p s.services.rpc.tasks
  rw [hl] at hfl
  cases hz : s.services.rpc.tasks.find? (fun t => t.1 = p && t.2.live) with
  | none => rw [hz] at hfl; exact nomatch hfl
  | some y =>
    obtain ⟨z, y⟩ := y
    rw [hz] at hfl
    injection hfl with hfl
    have hfl : y = .nfs (.running st pending) := hfl
    subst hfl
    unfold bufferFor
    simp only [hz, hr, hq]
    generalize hpr : q.call.procedure = pr at hm
    generalize q.call.program = g at hm
    cases hm with
    | read _ _ _ _ hlen =>
      simp only [readBuffer, (ino_iff fh hlen ino).2 hi, hf]

theorem memRun_aborted (e : Endian) (m : Mode) (db : Db) (s : MemSystem F) (h : s.aborted = true)
    (xs : List (Nat × SysAction F)) : memRun e m db s xs = ([], s) := by
  induction xs with
  | nil => rfl
  | cons x xs ih => simp [memRun, memStep, h, ih]

theorem memRun_append (e : Endian) (m : Mode) (db : Db) (xs ys : List (Nat × SysAction F)) (s : MemSystem F) :
    memRun e m db s (xs ++ ys) = ((memRun e m db s xs).1 ++ (memRun e m db (memRun e m db s xs).2 ys).1,
      (memRun e m db (memRun e m db s xs).2 ys).2) := by
  induction xs generalizing s with
  | nil => simp [memRun]
  | cons x xs ih => simp [memRun, ih]

/-! ## What is false -/

/-- C117: exactly which events end the process for want of memory: the arrival of a READ call for more bytes than
the operating system grants, of a file that has been looked up at that port; and the arrival, at any RPC service, of
the beginning of a MNT or LOOKUP call with the length of a text for which it does not grant the room.  How long the
file is, and whether the text is there, does not matter. -/
theorem C117_ends_iff (m : Mode) (db : Db) (s : MemSystem F) (hs : s.aborted = false)
    (hrun : s.sys.app.running = true) (granted : Nat) (x : SysAction F) :
    (memStep .little m db s granted x).2.aborted = true ↔
      (∃ p ino count, ReadArrives x p ino count ∧ FileKnown s.sys p ino ∧ granted < count) ∨
        ∃ d n, ReachesRpc s.sys x d ∧ AnnouncesText d n ∧ granted < 2 * (n / 2) := by
  unfold memStep
  rw [hs]
  simp only [Bool.false_eq_true, if_false, hrun, true_and]
  constructor
  · intro h
    split at h
    · rename_i hg
      rcases bufferFor_some (s := s.sys) (x := x) (by omega) with ⟨p, ino, h1, h2⟩ | ⟨d, n, h1, h2, h3⟩
      · exact .inl ⟨p, ino, _, h1, h2, hg⟩
      · exact .inr ⟨d, n, h1, h2, h3 ▸ hg⟩
    · exact absurd (show false = true from h) (by decide)
  · rintro (⟨p, ino, count, h1, h2, h3⟩ | ⟨d, n, h1, h2, h3⟩)
    · rw [if_pos (by rw [bufferFor_arrives h1 h2]; exact h3)]
    · rw [if_pos (by rw [bufferFor_text h1 h2]; exact h3)]

/-- C117: the process that has ended for want of memory sends nothing more, whatever arrives: not even
broadcasts. -/
theorem C117_end_is_silence (m : Mode) (db : Db) (s : MemSystem F) (granted : Nat) (x : SysAction F)
    (h : (memStep .little m db s granted x).2.aborted = true) (xs : List (Nat × SysAction F)) :
    memRun .little m db s ((granted, x) :: xs) = ([], (memStep .little m db s granted x).2) := by
  have h1 := memRun_aborted .little m db _ h xs
  have h2 : (memStep .little m db s granted x).1 = [] := by
    unfold memStep at h ⊢
    split
    · rfl
    · rename_i ha
      rw [if_neg ha] at h
      split
      · rfl
      · rename_i hb
        rw [if_neg hb] at h
        exact absurd h ha
  simp only [memRun, h1, h2, List.append_nil]

theorem announces_wanted {d : Bytes} {n : Nat} (h : AnnouncesText d n) : wantedBytes d = n := by
  obtain ⟨-, -, ⟨h1, h2, -, h3⟩ | ⟨h1, h2, -, h3⟩⟩ := h
  · rw [wantedBytes, if_pos ⟨h1, h2⟩, h3]
  · rw [wantedBytes, if_neg (by omega), if_pos ⟨h1, h2⟩, h3]

theorem read_wanted {d : Bytes} {xid : UInt32} {fh : Bytes} {o c t : UInt32}
    (h : IsCall d xid (.nfsRead fh o c t)) : wantedBytes d = c.toNat := by
  have h12 : wordAt 12 d = 100003 := h.prog
  have h20 : wordAt 20 d = 6 := h.proc
  obtain ⟨q, hq, -, hm⟩ := (C81_call_iff _ _ _).1 h
  rw [wantedBytes, if_neg (by omega), if_neg (by omega)]
  generalize hpr : q.call.procedure = pr at hm
  generalize q.call.program = gg at hm
  cases hm with
  | read _ _ _ _ hlen => exact ((call_lengths hq).2.2.2.1 _ hpr).2

/-- What an event makes the process reserve is at most what its datagram asks for. -/
theorem bufferFor_wanted {s : System F} {x : SysAction F} {g : Nat}
    (h1 : ∀ os bound d peer, x = .portmap os bound (.datagram d peer) → wantedBytes d ≤ g)
    (h2 : ∀ p w os d peer, x = .port p ⟨w, os, .datagram d peer⟩ → wantedBytes d ≤ g) :
    bufferFor .little s x ≤ g := by
  rcases Nat.eq_zero_or_pos (bufferFor .little s x) with h | h
  · omega
  rcases bufferFor_some h with ⟨p, ino, ⟨⟨w, os, rc⟩, d, peer, xid, fh, o, c, t, rfl, hr, hc, -, h5⟩, -⟩ |
    ⟨d, n, hx, hn, h5⟩
  · have hr : rc = .datagram d peer := hr
    subst hr
    have := h2 p w os d peer rfl
    rw [read_wanted hc] at this
    omega
  · have : wantedBytes d ≤ g := by
      rcases hx with ⟨os, bound, peer, rfl, -⟩ | ⟨p, ⟨w, os, rc⟩, peer, rfl, hr, -⟩
      · exact h1 os bound d peer rfl
      · have hr : rc = .datagram d peer := hr
        subst hr
        exact h2 p w os d peer rfl
    rw [announces_wanted hn] at this
    omega

/-- A whole LOOKUP call asks for less than its own length. -/
theorem lookup_wanted {d : Bytes} {xid : UInt32} {fh : Bytes} {name : Str} (h : IsCall d xid (.nfsLookup fh name)) :
    wantedBytes d ≤ d.length := by
  have h12 : wordAt 12 d = 100003 := h.prog
  have h20 : wordAt 20 d = 4 := h.proc
  obtain ⟨hfh, n, rest, he, hn⟩ := h.args
  have hl := congrArg List.length he
  have hw : wordAt 92 d = n.toNat := by
    rw [← wordAt_zero n (utf16le name ++ rest)]
    unfold wordAt
    rw [show (92 : Nat) = 60 + 32 from rfl, ← List.drop_drop, he, List.drop_zero, List.append_assoc, List.append_assoc,
      List.drop_left' hfh]
  rw [wantedBytes, if_neg (by omega), if_pos ⟨h12, h20⟩, hw]
  simp [hfh] at hl
  omega

/-- Events at the port of an NFS handler, while there is enough memory. -/
theorem memRun_port (m : Mode) (db : Db) (p : UInt16) (g : Nat) (evs : List (NfsEvent F)) (s : MemSystem F)
    (hs : s.aborted = false) (hrun : s.sys.app.running = true) (st : Nfs F) (pending : Option (Bytes × Addr))
    (hl : listener p s.sys.services.rpc.tasks = some (.nfs (.running st pending)))
    (st' : Nfs F) (pending' : Option (Bytes × Addr))
    (hn : (nfsRun .little (.running st pending) evs).2 = .running st' pending')
    (hno : ∀ ev ∈ evs, ∀ d peer, ev.recv = .datagram d peer → wantedBytes d ≤ g) :
    ∃ o s', memRun .little m db s (evs.map fun ev => (g, .port p ev)) = (o, s') ∧ s'.aborted = false ∧
      s'.sys.app.running = true ∧ listener p s'.sys.services.rpc.tasks = some (.nfs (.running st' pending')) := by
  induction evs generalizing s st pending with
  | nil =>
    simp only [nfsRun, NfsTask.running.injEq] at hn
    obtain ⟨rfl, rfl⟩ := hn
    exact ⟨[], s, rfl, hs, hrun, hl⟩
  | cons ev evs ih =>
    have hb : bufferFor .little s.sys (.port p ev) ≤ g :=
      bufferFor_wanted (fun _ _ _ _ h => nomatch h) (fun p' w os d peer h => by
        injection h with h1 h2
        exact hno ev (by simp) d peer (by rw [h2]))
    simp only [nfsRun] at hn
    cases hstep : (nfsStep .little ev.world ev.os ev.recv (.running st pending)).2 with
    | dead =>
      rw [hstep] at hn
      have : ∀ evs : List (NfsEvent F), (nfsRun .little .dead evs).2 = .dead := by
        intro evs
        induction evs with
        | nil => rfl
        | cons x xs ih => simpa [nfsRun, nfsStep] using ih
      rw [this] at hn
      exact nomatch hn
    | running st₁ pending₁ =>
      rw [hstep] at hn
      obtain ⟨-, hd⟩ := deliver_listener .little (knownNetwork s.sys.app) p ev s.sys.services.rpc.tasks _ hl
      have ht : (taskStep .little (knownNetwork s.sys.app) ev (.nfs (.running st pending))).2 =
          .nfs (.running st₁ pending₁) := by
        simp only [taskStep, hstep]
      rw [ht] at hd
      have hd := hd rfl
      have hm : memStep .little m db s g (.port p ev) = ((sysStep .little m db s.sys (.port p ev)).1,
          { s with sys := (sysStep .little m db s.sys (.port p ev)).2 }) := by
        unfold memStep
        rw [if_neg (by rw [hs]; decide), if_neg (by omega)]
      have hsys : (sysStep .little m db s.sys (.port p ev)).2.app = s.sys.app ∧
          listener p (sysStep .little m db s.sys (.port p ev)).2.services.rpc.tasks =
            some (.nfs (.running st₁ pending₁)) := by
        simp only [sysStep, hrun, if_true, servicesStep, rpcStep, true_and]
        exact hd
      obtain ⟨o, s', h1, h2, h3, h4⟩ := ih { s with sys := (sysStep .little m db s.sys (.port p ev)).2 } hs
        (by rw [hsys.1]; exact hrun) st₁ pending₁ hsys.2 hn (fun ev' h => hno ev' (by simp [h]))
      refine ⟨(sysStep .little m db s.sys (.port p ev)).1 ++ o, s', ?_, h2, h3, h4⟩
      rw [List.map_cons, memRun]
      simp only [hm, h1]

theorem walk_component {p : Str} {rs : List (LookupReq F)} {md : Meta} {f : F} (hw : Walk p rs md f) :
    ∀ q ∈ rs, Component q.name ∧ q.fh.length = 32 := by
  induction hw with
  | last hn hh => simp [hn, hh]
  | dir hn hh hs hf hd ho hw ih =>
    intro q hq
    rcases List.mem_cons.1 hq with rfl | hq
    · exact ⟨hn, hh⟩
    · exact ih q hq

/-- C117 (full claim: a short request does not make the process run out of memory).  The claim is false: in every
state in which the portmapper runs, a GETPORT call, the LOOKUP calls of any file and one READ call of 104 bytes
for more bytes than the operating system grants end the process, whatever the length of the file; all of them are
calls as they should be. -/
theorem C117_short_call_ends (m : Mode) (db : Db) (s : MemSystem F) (hs : s.aborted = false)
    (hrun : s.sys.app.running = true) (hpm : s.sys.services.rpc.portmap = true) (p : UInt16)
    (hfresh : listener p s.sys.services.rpc.tasks = none) (h₁ h₂ : Hdr) (v pt : UInt32) (peer₁ peer₂ : Addr)
    (rs : List (LookupReq F)) (md : Meta) (f : F) (hw : Walk [] rs md f) (g : Nat)
    (hlook : ∀ r ∈ rs, (callDatagram r.hdr (.nfsLookup r.fh r.name)).length ≤ g) (w : World F) (os : SendOs)
    (o c t : UInt32) (granted : Nat) (hg : granted < c.toNat) :
    (callDatagram h₂ (.nfsRead (handleOf md.ino) o c t)).length = 104 ∧
    ∃ out s', memRun .little m db s
        ((0, .portmap (fun _ _ => true) (some p) (.datagram (callDatagram h₁ (.pmapGetport 100003 v pt)) peer₁)) ::
          rs.map (fun r => (g, .port p r.event)) ++
          [(granted, .port p ⟨w, os, .datagram (callDatagram h₂ (.nfsRead (handleOf md.ino) o c t)) peer₂⟩)]) =
        (out, s') ∧ s'.aborted = true ∧ ∀ xs, memRun .little m db s' xs = ([], s') := by
  have hlen : (handleOf md.ino).length = 32 := by simp [handleOf]
  constructor
  · simp [callDatagram, rfcCall, opaqueAuth, authUnixBody, xdrOpaque, xdrPad, Proc.args, hlen]
  obtain ⟨t₁, g1, g2, g3, g4⟩ := C30_getport_nfs .little s.sys.services.rpc hpm h₁ v pt peer₁ p hfresh
    (fun _ _ => true) rfl
  obtain ⟨out, r, k1, -, -, -⟩ := C34_path_walk .little rs md f hw Nfs.new rfl
  have hget : bufferFor .little s.sys (.portmap (fun _ _ => true) (some p)
      (.datagram (callDatagram h₁ (.pmapGetport 100003 v pt)) peer₁)) = 0 := by
    refine Nat.le_zero.1 (bufferFor_wanted (fun os bound d peer e => ?_) (fun _ _ _ _ _ h => nomatch h))
    injection e with e1 e2 e3
    injection e3 with e3 e4
    subst e3
    have hc := isCall_callDatagram h₁ (.pmapGetport 100003 v pt) .portmap _ (.getportNfs v pt)
      (fun path e => nomatch e)
    have h12 : wordAt 12 (callDatagram h₁ (.pmapGetport 100003 v pt)) = 100000 := hc.prog
    rw [wantedBytes, if_neg (by omega), if_neg (by omega), askedBytes, if_neg (by omega)]
    exact Nat.le_refl 0
  have hfirst : memStep .little m db s 0
      (.portmap (fun _ _ => true) (some p) (.datagram (callDatagram h₁ (.pmapGetport 100003 v pt)) peer₁)) =
      ([.rpc (none, rfcReply h₁.xid (portWord p), peer₁)],
        ⟨{ s.sys with services := ⟨t₁, s.sys.services.accepting && t₁.portmap⟩ }, false⟩) := by
    unfold memStep
    rw [if_neg (by rw [hs]; decide), if_neg (by rw [hget]; simp)]
    simp [sysStep, hrun, servicesStep, g1, hs]
  obtain ⟨o₂, s₂, m1, m2, m3, m4⟩ := memRun_port m db p g (rs.map LookupReq.event)
    ⟨{ s.sys with services := ⟨t₁, s.sys.services.accepting && t₁.portmap⟩ }, false⟩ rfl hrun Nfs.new none g3 _ _
    (congrArg Prod.snd k1) (by
      intro ev hev d peer hr
      obtain ⟨q, hq, rfl⟩ := List.mem_map.1 hev
      simp only [LookupReq.event, Recv.datagram.injEq] at hr
      obtain ⟨rfl, -⟩ := hr
      obtain ⟨hcomp, hfh⟩ := walk_component hw q hq
      exact Nat.le_trans (lookup_wanted (isCall_callDatagram q.hdr (.nfsLookup q.fh q.name) .nfs _
        (.lookup _ _ hfh hcomp.2.2) (fun path e => nomatch e))) (hlook q hq))
  have hlast : (memStep .little m db s₂ granted
      (.port p ⟨w, os, .datagram (callDatagram h₂ (.nfsRead (handleOf md.ino) o c t)) peer₂⟩)).2.aborted = true := by
    rw [C117_ends_iff m db s₂ m2 m3]
    refine .inl ⟨p, md.ino, c.toNat, ⟨_, _, _, h₂.xid, handleOf md.ino, o, c, t, rfl, rfl,
      isCall_callDatagram h₂ _ .nfs _ (.read _ _ _ _ hlen) (fun path e => nomatch e), ?_, rfl⟩,
      ⟨_, _, f, m4, ?_⟩, hg⟩
    · simp [handleOf, le64]
    · simp
  refine ⟨[.rpc (none, rfcReply h₁.xid (portWord p), peer₁)] ++ (o₂ ++ []), _, ?_, hlast,
    fun xs => memRun_aborted .little m db _ hlast xs⟩
  rw [List.cons_append, memRun]
  simp only [hfirst]
  have hm : rs.map (fun r => ((g, .port p r.event) : Nat × SysAction F)) =
      (rs.map LookupReq.event).map fun ev => (g, .port p ev) := by simp
  rw [memRun_append, hm, m1]
  simp only [C117_end_is_silence m db s₂ _ _ hlast []]

/-- The beginning of a MNT call, up to the length of a text. -/
def longText (n : UInt32) : Bytes :=
  be32 0 ++ be32 0 ++ be32 2 ++ be32 100005 ++ be32 1 ++ be32 1 ++ List.replicate 36 0 ++ be32 n

theorem longText_announces (n : UInt32) : (longText n).length = 64 ∧ AnnouncesText (longText n) n.toNat := by
  refine ⟨by simp [longText], rfl, Nat.zero_le _, .inl ⟨rfl, rfl, by simp [longText], ?_⟩⟩
  have e : longText n = (be32 0 ++ be32 0 ++ be32 2 ++ be32 100005 ++ be32 1 ++ be32 1 ++ List.replicate 36 0) ++
    (be32 n ++ []) := by simp [longText]
  rw [← wordAt_zero n []]
  unfold wordAt
  rw [e, List.drop_zero, List.drop_left' (by simp)]

/-- C117: nor need anything be looked up: one datagram of 64 bytes at the portmapper, the beginning of a call with the
length of a text that does not follow, ends every process whose portmapper runs, unless the operating system grants
almost 4 GiB. -/
theorem C117_one_datagram_ends : ∃ d : Bytes, d.length = 64 ∧ ∀ (m : Mode) (db : Db) (s : MemSystem F),
    s.sys.app.running = true → s.sys.services.rpc.portmap = true → ∀ granted, granted < 4294967294 →
    ∀ os bound peer xs, ∃ s', s'.aborted = true ∧
      memRun .little m db s ((granted, .portmap os bound (.datagram d peer)) :: xs) = ([], s') := by
  refine ⟨longText 4294967295, (longText_announces _).1, ?_⟩
  intro m db s hrun hpm granted hg os bound peer xs
  have h : (memStep .little m db s granted (.portmap os bound (.datagram (longText 4294967295) peer))).2.aborted
      = true := by
    cases hs : s.aborted with
    | true => simp [memStep, hs]
    | false =>
      exact (C117_ends_iff m db s hs hrun granted _).2 (.inr ⟨_, _, .inl ⟨os, bound, peer, rfl, hpm⟩,
        (longText_announces 4294967295).2, hg⟩)
  exact ⟨_, h, C117_end_is_silence m db s granted _ h xs⟩

/-- A process just started. -/
example (m : Mode) (db : Db) (xs : List (Nat × SysAction Nat)) : ∃ d : Bytes, d.length = 64 ∧ ∃ s',
    s'.aborted = true ∧ memRun .little m db .start
      ((1000000000, .portmap (fun _ _ => true) (some 40000) (.datagram d ⟨7, 7⟩)) :: xs) = ([], s') := by
  obtain ⟨d, h, k⟩ := C117_one_datagram_ends (F := Nat)
  exact ⟨d, h, k m db .start rfl rfl 1000000000 (by decide) _ _ _ xs⟩

/-- A process just started, a file of three bytes, a call for 4 GiB, a machine that grants 1 GiB. -/
example (m : Mode) (db : Db) : ∃ out s', memRun .little m db .start
    ((0, .portmap (fun _ _ => true) (some 40000)
        (.datagram (callDatagram sampleHdr (.pmapGetport 100003 2 0)) ⟨7, 7⟩)) ::
      [sampleReq ['a'], sampleReq ['x']].map (fun r => (200, .port 40000 r.event)) ++
      [(1073741824, .port 40000 ⟨sampleWorld, fun _ _ _ => true, .datagram
        (callDatagram sampleHdr (.nfsRead (handleOf (sampleMeta 3 true).ino) 0 4294967295 0)) ⟨7, 7⟩⟩)]) =
    (out, s') ∧ s'.aborted = true ∧ ∀ xs, memRun .little m db s' xs = ([], s') :=
  (C117_short_call_ends m db .start rfl rfl rfl 40000 rfl sampleHdr sampleHdr 2 0 ⟨7, 7⟩ ⟨7, 7⟩ _ _ _ sampleWalk
    200 (by decide +kernel) sampleWorld (fun _ _ _ => true) 0 4294967295 0 1073741824 (by decide)).2

/-- A process with a file handler that knows the file 3, and a machine that grants 100 bytes for a call for 200. -/
def sampleMem : MemSystem Nat :=
  ⟨{ (.start : System Nat) with services := ⟨⟨true, [(40000, .nfs (.running sampleNfs none))]⟩, true⟩ }, false⟩

example (m : Mode) (db : Db) : (memStep .little m db sampleMem 100 (.port 40000 ⟨sampleWorld, fun _ _ _ => true,
    .datagram (callDatagram sampleHdr (.nfsRead (handleOf 3) 0 200 0)) ⟨7, 7⟩⟩)).2.aborted = true :=
  (C117_ends_iff m db sampleMem rfl rfl _ _).2 (.inl ⟨40000, 3, 200, ⟨_, _, _, sampleHdr.xid, _, _, _, _, rfl, rfl,
    isCall_callDatagram sampleHdr _ .nfs _ (.read _ _ _ _ (by decide)) (fun path e => nomatch e), by decide, rfl⟩,
    ⟨_, _, 3, rfl, rfl⟩, by decide⟩)

example (m : Mode) (db : Db) := C117_end_is_silence m db sampleMem 100 (.port 40000 ⟨sampleWorld, fun _ _ _ => true,
    .datagram (callDatagram sampleHdr (.nfsRead (handleOf 3) 0 200 0)) ⟨7, 7⟩⟩)
  ((C117_ends_iff m db sampleMem rfl rfl _ _).2 (.inl ⟨40000, 3, 200, ⟨_, _, _, sampleHdr.xid, _, _, _, _, rfl, rfl,
    isCall_callDatagram sampleHdr _ .nfs _ (.read _ _ _ _ (by decide)) (fun path e => nomatch e), by decide, rfl⟩,
    ⟨_, _, 3, rfl, rfl⟩, by decide⟩)) [(0, .accept 1), (5, .accept 2)]

/-! ## What holds -/

/-- C117 (full claim: a short request does not make the process run out of memory).  Missing: the claim is false
(`C117_short_call_ends`).  What holds: as long as the operating system grants what READ, LOOKUP and MNT calls ask for, the
process does what it does with unlimited memory, in every history. -/
theorem C117_served_partial (m : Mode) (db : Db) (xs : List (Nat × SysAction F))
    (h₁ : ∀ granted os bound d peer, (granted, .portmap os bound (.datagram d peer)) ∈ xs → wantedBytes d ≤ granted)
    (h₂ : ∀ granted p w os d peer, (granted, .port p ⟨w, os, .datagram d peer⟩) ∈ xs → wantedBytes d ≤ granted)
    (s : System F) :
    memRun .little m db ⟨s, false⟩ xs =
      ((sysRun .little m db s (xs.map (·.2))).1, ⟨(sysRun .little m db s (xs.map (·.2))).2, false⟩) := by
  induction xs generalizing s with
  | nil => rfl
  | cons x xs ih =>
    obtain ⟨g, x⟩ := x
    have hb : bufferFor .little s x ≤ g :=
      bufferFor_wanted (fun os bound d peer e => h₁ g os bound d peer (by rw [e]; simp))
        (fun p w os d peer e => h₂ g p w os d peer (by rw [e]; simp))
    have hstep : memStep .little m db ⟨s, false⟩ g x = ((sysStep .little m db s x).1,
        ⟨(sysStep .little m db s x).2, false⟩) := by
      unfold memStep
      rw [if_neg (by simp), if_neg (fun h => absurd h.2 (Nat.not_lt.2 hb))]
    simp only [memRun, hstep, ih
      (fun g' os bound d peer hm => h₁ g' os bound d peer (by simp [hm]))
      (fun g' p w os d peer hm => h₂ g' p w os d peer (by simp [hm])), List.map_cons, sysRun]

/-- READ calls for no more than 2 KiB and at least as much memory. -/
example (m : Mode) (db : Db) : memRun .little m db .start
    [(2048, .port 40000 ⟨sampleWorld, fun _ _ _ => true, .datagram
      (callDatagram sampleHdr (.nfsRead (handleOf 3) 0 2048 0)) ⟨7, 7⟩⟩)] =
    ((sysRun .little m db .start [.port 40000 ⟨sampleWorld, fun _ _ _ => true, .datagram
      (callDatagram sampleHdr (.nfsRead (handleOf 3) 0 2048 0)) ⟨7, 7⟩⟩]).1,
      ⟨(sysRun .little m db .start [.port 40000 ⟨sampleWorld, fun _ _ _ => true, .datagram
      (callDatagram sampleHdr (.nfsRead (handleOf 3) 0 2048 0)) ⟨7, 7⟩⟩]).2, false⟩) :=
  C117_served_partial m db _ (by
    intro g os bound d peer h
    rw [List.mem_singleton] at h
    exact nomatch (Prod.mk.inj h).2) (by
    intro g p w os d peer h
    rw [List.mem_singleton] at h
    injection h with h1 h2
    injection h2 with h2 h3
    injection h3 with h3 h4 h5
    injection h5 with h5 h6
    subst h1 h5
    decide +kernel) .start

/-- C117: whole calls other than READ do ask in proportion to their length: they do not end a process that is
granted as many bytes as the datagram has. -/
theorem C117_whole_calls_served_partial (m : Mode) (db : Db) (s : MemSystem F) (hs : s.aborted = false)
    (hrun : s.sys.app.running = true) (granted : Nat) (x : SysAction F)
    (h : ∀ d, ReachesRpc s.sys x d → d.length ≤ granted ∧
      ∃ xid p, IsCall d xid p ∧ ∀ fh o c t, p ≠ .nfsRead fh o c t) :
    (memStep .little m db s granted x).2.aborted = false := by
  rw [← Bool.not_eq_true, C117_ends_iff m db s hs hrun]
  rintro (⟨p, ino, count, ⟨ev, d, peer, xid, fh, o, c, t, rfl, hr, hc, -, -⟩, ⟨st, pending, f, hl, -⟩, -⟩ |
    ⟨d, n, hx, hn, hg⟩)
  · obtain ⟨-, xid', p', hc', hne⟩ := h d (.inr ⟨p, ev, peer, rfl, hr, by rw [hl]; exact fun h => nomatch h⟩)
    exact hne _ _ _ _ (C81_call_unique d xid' xid _ _ hc' hc).2
  · obtain ⟨hd, xid, p, hc, -⟩ := h d hx
    have hprog := hc.prog
    have hproc := hc.proc
    have hl : (d.drop 60).length = d.length - 60 := by simp
    obtain ⟨-, -, ⟨h1, h2, -, h3⟩ | ⟨h1, h2, -, h3⟩⟩ := hn
    · rw [h1] at hprog
      rw [h2] at hproc
      cases p with
      | mntMnt path =>
        obtain ⟨k, rest, he, hk, -⟩ := hc.args
        have hw : wordAt 60 d = k.toNat := by
          rw [← wordAt_zero k (utf16le path ++ rest)]
          unfold wordAt
          rw [he, List.drop_zero, List.append_assoc]
        rw [he] at hl
        simp at hl
        omega
      | _ => first | (simp [Proc.num] at hproc; done) | simp [Proc.prog] at hprog
    · rw [h1] at hprog
      rw [h2] at hproc
      cases p with
      | nfsLookup fh name =>
        have hwant := lookup_wanted hc
        rw [wantedBytes, if_neg (by omega), if_pos ⟨h1, h2⟩, ← h3] at hwant
        omega
      | _ => first | (simp [Proc.num] at hproc; done) | simp [Proc.prog] at hprog

/-- A MNT call, at the portmapper. -/
example (m : Mode) (db : Db) := C117_whole_calls_served_partial m db (.start : MemSystem Nat) rfl rfl 1000
  (.portmap (fun _ _ => true) (some 40000) (.datagram (callDatagram sampleHdr (.mntMnt ['/', 'C', '/'])) ⟨7, 7⟩))
  (by
    rintro d (⟨os, bound, peer, e, -⟩ | ⟨p, ev, peer, e, -⟩)
    · injection e with e1 e2 e3
      injection e3 with e3 e4
      subst e3
      exact ⟨by decide +kernel, _, _, isCall_callDatagram sampleHdr (.mntMnt ['/', 'C', '/']) .mount _
        (.mnt _ (by decide +kernel)) (by intro p e; cases e; decide +kernel), fun _ _ _ _ h => nomatch h⟩
    · exact nomatch e)

end PDJ
