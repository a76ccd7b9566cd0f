import Verif.Spec.OverlapUse
import Verif.Props.Overlap
import Verif.Props.Asked
import Verif.Props.Amid
import Verif.Props.Volume

/-!
# What overlapping steps send: lemmas

What is sent from a socket is sent by one party, and so the order of the steps of C127 has the answers of each socket
in the order in which they are sent.
-/

namespace PDJ

open Spec

variable {F : Type}

/-! ## Who sends what -/

/-- Whether something can be sent by a party. -/
def comesFrom (p : PDJ.Party) : SysOut → Prop
  | .broadcast _ => p = .main ∨ p = .broadcaster
  | .rpc (none, _) => p = .portmapper
  | .rpc (some q, _) => p = .port q
  | .lib (.toMain c _) => p = .conn c
  | .lib (.toHandler h _) => p = .handler h
  | .status _ => p = .status

theorem deliver_from (e : Endian) (net : Option PioneerNetwork) (p : UInt16) (ev : NfsEvent F) (s : RpcSystem F) :
    ∀ y ∈ (rpcStep e s (.port p net ev)).1, y.1 = some p := by
  intro y hy
  simp only [rpcStep, List.mem_map] at hy
  obtain ⟨z, _, rfl⟩ := hy
  rfl

theorem step_from (e : Endian) (m : Mode) (db : Db) (s : System F) (x : SysAction F) :
    ∀ y ∈ (sysStep e m db s x).1, comesFrom x.party y := by
  intro y hy
  unfold sysStep at hy
  split at hy
  · cases x with
    | app x =>
      simp only [List.mem_map] at hy
      obtain ⟨z, hz, rfl⟩ := hy
      cases x with
      | receive i d =>
        simp only [appStep] at hz
        repeat' split at hz
        all_goals exact nomatch hz
      | broadcast _ => exact .inr rfl
      | appRecv => exact .inl rfl
      | appLink _ => exact .inl rfl
    | portmap os bound r =>
      simp only [List.mem_map, servicesStep, rpcStep] at hy
      obtain ⟨z, ⟨w, _, rfl⟩, rfl⟩ := hy
      rfl
    | port p ev =>
      simp only [List.mem_map, servicesStep] at hy
      obtain ⟨⟨z1, z2⟩, hz, rfl⟩ := hy
      have := deliver_from e (knownNetwork s.app) p ev s.services.rpc _ hz
      simp only at this
      subst this
      rfl
    | accept c => exact nomatch hy
    | hangup c => exact nomatch hy
    | main c bound =>
      dsimp only at hy
      split at hy
      · simp only [libStep, List.mem_map] at hy
        obtain ⟨z, hz, rfl⟩ := hy
        split at hz
        · exact nomatch hz
        · cases bound with
          | none => exact nomatch hz
          | some q =>
            rw [List.mem_singleton.1 hz]
            rfl
      · exact nomatch hy
    | handler h ev =>
      simp only [libStep, List.mem_map] at hy
      obtain ⟨z, hz, rfl⟩ := hy
      split at hz
      · exact nomatch hz
      · obtain ⟨w, _, rfl⟩ := List.mem_map.1 hz
        rfl
    | status r =>
      simp only [List.mem_map] at hy
      obtain ⟨z, _, rfl⟩ := hy
      rfl
  · exact nomatch hy

theorem sentBy_from (e : Endian) (m : Mode) (db : Db) (p : PDJ.Party) (xs : List (SysAction F)) (s : System F) :
    ∀ y ∈ sentBy e m db p s xs, comesFrom p y := by
  induction xs generalizing s with
  | nil => exact fun y hy => nomatch hy
  | cons x xs ih =>
    intro y hy
    rcases List.mem_append.1 hy with h | h
    · split at h
      next hp => exact (isOf_party _ _).1 hp ▸ step_from e m db s x y h
      · exact nomatch h
    · exact ih _ y h

theorem sentBy_append (e : Endian) (m : Mode) (db : Db) (p : PDJ.Party) (xs ys : List (SysAction F)) (s : System F) :
    sentBy e m db p s (xs ++ ys) = sentBy e m db p s xs ++ sentBy e m db p (sysRun e m db s xs).2 ys := by
  induction xs generalizing s with
  | nil => rfl
  | cons x xs ih =>
    simp only [List.cons_append, sentBy, ih, sysRun, List.append_assoc]

theorem sentOf_mem {p : PDJ.Party} {o : List (PDJ.Party × SysOut)} {y : SysOut} : y ∈ sentOf p o ↔ (p, y) ∈ o := by
  simp only [sentOf, List.mem_filterMap]
  constructor
  · rintro ⟨⟨q, z⟩, hz, h⟩
    split at h
    next hq =>
      cases h
      exact hq ▸ hz
    · exact nomatch h
  · intro h
    exact ⟨_, h, if_pos rfl⟩

theorem sentOf_append (p : PDJ.Party) (a b : List (PDJ.Party × SysOut)) : sentOf p (a ++ b) = sentOf p a ++ sentOf p b :=
  List.filterMap_append

theorem overlap_from (e : Endian) (m : Mode) (db : Db) (h : List (OverlapAction F)) (o : List (PDJ.Party × SysOut))
    (s : Overlap F) (hr : overlapRun e m db .start h = some (o, s)) : ∀ y ∈ o, comesFrom y.1 y.2 := by
  obtain ⟨lin, _, hl⟩ := C127_one_by_one (F := F) e m db
  rintro ⟨p, y⟩ hy
  obtain ⟨more, _, _, h3, _⟩ := (hl h o s hr).1 p
  exact sentBy_from e m db p _ _ y (h3.subset (sentOf_mem.2 hy))

/-- What only one party can send. -/
def OnlyOf {β : Type} (p : PDJ.Party) (f : SysOut → Option β) : Prop := ∀ q y, comesFrom q y → q ≠ p → f y = none

theorem onlyOf_run {β : Type} {p : PDJ.Party} {f : SysOut → Option β} (hf : OnlyOf p f) (e : Endian) (m : Mode) (db : Db)
    (xs : List (SysAction F)) (s : System F) :
    (sysRun e m db s xs).1.filterMap f = (sentBy e m db p s xs).filterMap f := by
  induction xs generalizing s with
  | nil => rfl
  | cons x xs ih =>
    simp only [sysRun, sentBy, List.filterMap_append, ih]
    congr 1
    split
    · rfl
    next hn =>
      rw [List.filterMap_nil]
      apply List.filterMap_eq_nil_iff.2
      intro y hy
      exact hf _ _ (step_from e m db s x y hy) fun h => hn ((isOf_party _ _).2 h)

theorem onlyOf_overlap {β : Type} {p : PDJ.Party} {f : SysOut → Option β} (hf : OnlyOf p f)
    (o : List (PDJ.Party × SysOut)) (ho : ∀ y ∈ o, comesFrom y.1 y.2) :
    (o.map Prod.snd).filterMap f = (sentOf p o).filterMap f := by
  induction o with
  | nil => rfl
  | cons y o ih =>
    have ih := ih fun z hz => ho z (List.mem_cons_of_mem _ hz)
    by_cases hp : y.1 = p
    · simp only [List.map_cons, sentOf, List.filterMap_cons, if_pos hp] at ih ⊢
      rw [ih]
    · rw [List.map_cons, List.filterMap_cons, hf _ _ (ho y List.mem_cons_self) hp]
      simp only [sentOf, List.filterMap_cons, if_neg hp] at ih ⊢
      exact ih

/-! ## What happens from some time on -/

theorem whole_lib (s : Overlap F) : s.whole.lib = s.sys.lib ∧ s.whole.services = s.sys.services ∧
    s.whole.app.running = s.sys.app.running := by
  have key : ∀ (ws : List Write) (t : System F), (settled t ws).lib = t.lib ∧ (settled t ws).services = t.services := by
    intro ws
    induction ws with
    | nil => exact fun t => ⟨rfl, rfl⟩
    | cons w ws ih =>
      intro t
      obtain ⟨h1, h2⟩ := ih (w.apply t)
      exact ⟨h1.trans (by cases w <;> rfl), h2.trans (by cases w <;> rfl)⟩
  unfold Overlap.whole
  split
  · exact ⟨(key _ _).1, (key _ _).2, settled_running _ _⟩
  · exact ⟨rfl, rfl, rfl⟩

/-- From a time at which a party is between two steps, it sends what it sends if the steps are taken as a whole one
after the other in the order of their effects. -/
theorem onwards {e : Endian} {m : Mode} {db : Db} {h h' : List (OverlapAction F)} {o o' : List (PDJ.Party × SysOut)}
    {s s' : Overlap F} (hr : overlapRun e m db .start h = some (o, s)) (hr' : overlapRun e m db s h' = some (o', s'))
    (p : PDJ.Party) (hp : p ≠ .main) (hi : s.doing p = .idle) :
    ∃ outs more, sentOf p o' ++ outs = sentBy e m db p s.whole (effects e m db s h') ∧
      stepsOf p (effects e m db s h') ++ more = stepsOf p (begunSteps h') ∧
      (s'.doing p = .idle → outs = [] ∧ more = []) ∧
      (sysRun e m db s.whole (effects e m db s h')).2 = s'.whole := by
  obtain ⟨l1, k1⟩ := (lined_start e m db).history held_start h hr
  obtain ⟨l2, _⟩ := l1.history k1 h' hr'
  simp only [List.nil_append] at l1 l2
  have hrun : (sysRun e m db s.whole (effects e m db s h')).2 = s'.whole := by
    rw [← l2.run, sysRun_append, l1.run]
  have h1 := l1.ok p
  simp only [PartyOk, hi] at h1
  have h2 := l2.ok p
  have hs : ∀ outs, sentOf p (o ++ o') ++ outs =
      sentBy e m db p .start (effects e m db .start h ++ effects e m db s h') →
      sentOf p o' ++ outs = sentBy e m db p s.whole (effects e m db s h') := by
    intro outs hh
    rw [sentOf_append, sentBy_append, h1.1, l1.run, List.append_assoc] at hh
    exact List.append_cancel_left hh
  have hb : ∀ more, stepsOf p (effects e m db .start h ++ effects e m db s h') ++ more =
      stepsOf p (begunSteps h ++ begunSteps h') →
      stepsOf p (effects e m db s h') ++ more = stepsOf p (begunSteps h') := by
    intro more hh
    rw [stepsOf_append, stepsOf_append, h1.2, List.append_assoc] at hh
    exact List.append_cancel_left hh
  unfold PartyOk at h2
  cases hd : s'.doing p with
  | idle =>
    simp only [hd] at h2
    exact ⟨[], [], hs _ (by rw [List.append_nil]; exact h2.1), hb _ (by rw [List.append_nil]; exact h2.2),
      fun _ => ⟨rfl, rfl⟩, hrun⟩
  | taken x =>
    simp only [hd] at h2
    exact ⟨[], [x], hs _ (by rw [List.append_nil]; exact h2.2.1), hb _ h2.2.2, nofun, hrun⟩
  | updating ws =>
    simp only [hd] at h2
    exact ⟨[], [], hs _ (by rw [List.append_nil]; exact h2.2.2.1), hb _ (by rw [List.append_nil]; exact h2.2.2.2),
      nofun, hrun⟩
  | linking x rest =>
    simp only [hd] at h2
    exact absurd (h2.1 ▸ links_main h2.2.1) hp
  | holding os =>
    simp only [hd] at h2
    exact ⟨os, [], hs _ h2.2.1, hb _ (by rw [List.append_nil]; exact h2.2.2), nofun, hrun⟩
  | reading os =>
    simp only [hd] at h2
    exact ⟨os, [], hs _ h2.2.1, hb _ (by rw [List.append_nil]; exact h2.2.2), nofun, hrun⟩
  | sending os =>
    simp only [hd] at h2
    exact ⟨os, [], hs _ h2.1, hb _ (by rw [List.append_nil]; exact h2.2), nofun, hrun⟩

theorem handlerPart_steps (i : Nat) (xs : List (SysAction F)) :
    handlerPart i (stepsOf (.handler i) xs) = handlerPart i xs := by
  induction xs with
  | nil => rfl
  | cons x xs ih =>
    simp only [stepsOf, List.filter_cons] at ih ⊢
    split
    next h =>
      cases x with
      | handler k ev => simp only [handlerPart, ih]
      | _ => exact absurd h (by simp [isOf])
    next h =>
      cases x with
      | handler k ev =>
        have : k ≠ i := fun hk => h ((isOf_party _ _).2 (by rw [hk]; rfl))
        simp only [handlerPart, if_neg this, ih]
      | _ => exact ih

theorem portPart_steps (p : UInt16) (xs : List (SysAction F)) :
    portPart p (stepsOf (.port p) xs) = portPart p xs := by
  induction xs with
  | nil => rfl
  | cons x xs ih =>
    simp only [stepsOf, List.filter_cons] at ih ⊢
    split
    next h =>
      cases x with
      | port k ev => simp only [portPart, ih]
      | _ => exact absurd h (by simp [isOf])
    next h =>
      cases x with
      | port k ev =>
        have : k ≠ p := fun hk => h ((isOf_party _ _).2 (by rw [hk]; rfl))
        simp only [portPart, if_neg this, ih]
      | _ => exact ih

theorem handlerPart_append (i : Nat) (xs ys : List (SysAction F)) :
    handlerPart i (xs ++ ys) = handlerPart i xs ++ handlerPart i ys := by
  induction xs with
  | nil => rfl
  | cons x xs ih =>
    cases x with
    | handler k ev =>
      simp only [List.cons_append, handlerPart, ih]
      split <;> rfl
    | _ => exact ih

theorem onlyOf_handler (i : Nat) : OnlyOf (.handler i) (fun x => match x with
    | .lib (.toHandler k b) => if k = i then some b else none
    | _ => none) := by
  intro q y hy hq
  match y with
  | .lib (.toHandler k b) =>
    have : k ≠ i := fun h => hq (by rw [← h]; exact hy)
    simp [this]
  | .lib (.toMain _ _) => rfl
  | .broadcast _ => rfl
  | .rpc _ => rfl
  | .status _ => rfl

theorem onlyOf_port (p : UInt16) : OnlyOf (.port p) (fun x => match x with
    | .rpc (some q, b) => if q = p then some b else none
    | _ => none) := by
  intro q y hy hq
  match y with
  | .rpc (some k, b) =>
    have : k ≠ p := fun h => hq (by rw [← h]; exact hy)
    simp [this]
  | .rpc (none, _) => rfl
  | .lib _ => rfl
  | .broadcast _ => rfl
  | .status _ => rfl

theorem handlerOf_sent (e : Endian) (m : Mode) (db : Db) (i : Nat) (xs : List (SysAction F)) (s : System F) :
    handlerOf i (sysRun e m db s xs).1 = handlerOf i (sentBy e m db (.handler i) s xs) :=
  onlyOf_run (onlyOf_handler i) e m db xs s

theorem handlerOf_overlap (i : Nat) (o : List (PDJ.Party × SysOut)) (ho : ∀ y ∈ o, comesFrom y.1 y.2) :
    handlerOf i (o.map Prod.snd) = handlerOf i (sentOf (.handler i) o) := onlyOf_overlap (onlyOf_handler i) o ho

theorem portOf_sent (e : Endian) (m : Mode) (db : Db) (p : UInt16) (xs : List (SysAction F)) (s : System F) :
    portOf p (sysRun e m db s xs).1 = portOf p (sentBy e m db (.port p) s xs) :=
  onlyOf_run (onlyOf_port p) e m db xs s

theorem portOf_overlap (p : UInt16) (o : List (PDJ.Party × SysOut)) (ho : ∀ y ∈ o, comesFrom y.1 y.2) :
    portOf p (o.map Prod.snd) = portOf p (sentOf (.port p) o) := onlyOf_overlap (onlyOf_port p) o ho

theorem statusPart_steps (xs : List (SysAction F)) : statusPart (stepsOf .status xs) = statusPart xs := by
  induction xs with
  | nil => rfl
  | cons x xs ih =>
    simp only [stepsOf, List.filter_cons] at ih ⊢
    cases x with
    | status r => simp only [isOf, if_true, statusPart, ih]
    | app y => cases y <;> exact ih
    | _ => exact ih

theorem statusPart_append (xs ys : List (SysAction F)) : statusPart (xs ++ ys) = statusPart xs ++ statusPart ys := by
  induction xs with
  | nil => rfl
  | cons x xs ih =>
    cases x with
    | status r => simp only [List.cons_append, statusPart, ih]
    | _ => exact ih

theorem onlyOf_status : OnlyOf .status (fun x => match x with | .status b => some b | _ => none) := by
  intro q y hy hq
  match y with
  | .status b => exact absurd hy hq
  | .rpc _ => rfl
  | .lib _ => rfl
  | .broadcast _ => rfl

theorem statusOf_sent (e : Endian) (m : Mode) (db : Db) (xs : List (SysAction F)) (s : System F) :
    statusOf (sysRun e m db s xs).1 = statusOf (sentBy e m db .status s xs) :=
  onlyOf_run onlyOf_status e m db xs s

theorem statusOf_overlap (o : List (PDJ.Party × SysOut)) (ho : ∀ y ∈ o, comesFrom y.1 y.2) :
    statusOf (o.map Prod.snd) = statusOf (sentOf .status o) := onlyOf_overlap onlyOf_status o ho

theorem statusRun_append (b : Bool) (xs ys : List StatusRecv) : (statusRun b (xs ++ ys)).1 =
    (statusRun b xs).1 ++ (statusRun (statusRun b xs).2 ys).1 := by
  induction xs generalizing b with
  | nil => rfl
  | cons x xs ih => simp only [List.cons_append, statusRun, ih, List.append_assoc]

/-! ## Sums and sockets -/

theorem sum_split {α : Type _} (g : α → Nat) (p : α → Bool) (l : List α) :
    (l.map g).sum = ((l.filter p).map g).sum + ((l.filter fun x => !p x).map g).sum := by
  induction l with
  | nil => rfl
  | cons a l ih =>
    simp only [List.filter_cons]
    cases p a <;> simp [ih] <;> omega

theorem sum_le_of_sublist {α : Type _} (g : α → Nat) {l l' : List α} (h : l.Sublist l') :
    (l.map g).sum ≤ (l'.map g).sum := by
  induction h with
  | slnil => exact Nat.le_refl _
  | cons a _ ih => simp only [List.map_cons, List.sum_cons]; omega
  | cons_cons a _ ih => simp only [List.map_cons, List.sum_cons]; omega

/-- If for each key there is no more in one list than in the other, there is no more in all. -/
theorem sum_by_key {α : Type _} {K : Type} [DecidableEq K] (key : α → K) (g : α → Nat) : ∀ (n : Nat) (xs ys : List α),
    xs.length ≤ n → (∀ k, (xs.filter fun x => key x = k).Sublist (ys.filter fun x => key x = k)) →
    (xs.map g).sum ≤ (ys.map g).sum
  | _, [], _, _, _ => Nat.zero_le _
  | 0, _ :: _, _, hn, _ => absurd hn (by simp)
  | n + 1, x :: xs, ys, hn, h => by
    rw [sum_split g (fun y => key y = key x) (x :: xs), sum_split g (fun y => key y = key x) ys]
    refine Nat.add_le_add (sum_le_of_sublist g (h _)) (sum_by_key key g n _ _ ?_ ?_)
    · have : ((x :: xs).filter fun y => !decide (key y = key x)) = xs.filter fun y => !decide (key y = key x) := by
        simp
      rw [this]
      have := List.length_filter_le (fun y => !decide (key y = key x)) xs
      simp only [List.length_cons] at hn
      omega
    · intro k
      rw [List.filter_filter, List.filter_filter]
      by_cases hk : k = key x
      · subst hk
        simp
      · have : ∀ l : List α, (l.filter fun y => decide (key y = k) && !decide (key y = key x)) =
            l.filter fun y => key y = k := by
          intro l
          apply List.filter_congr
          intro y _
          by_cases hy : key y = k
          · simp [hy, hk]
          · simp [hy]
        rw [this, this]
        exact h k

/-- Who has a socket. -/
def sockParty : Sock → PDJ.Party
  | .portmap => .portmapper
  | .rpc p => .port p
  | .main c => .conn c
  | .lib h => .handler h
  | .status => .status

/-- The answers at a socket, one by one. -/
def answerAt (k : Sock) (y : SysOut) : Option Spec.Party :=
  (answer y).bind fun a => if a.1 = k then some a.2 else none

theorem filter_map_at {α : Type _} (f : α → Option (Sock × Spec.Party)) (k : Sock) (l : List α) :
    ((l.filterMap f).filter fun q => q.1 = k).map (·.2) =
      l.filterMap fun y => (f y).bind fun a => if a.1 = k then some a.2 else none := by
  induction l with
  | nil => rfl
  | cons y l ih =>
    simp only [List.filterMap_cons]
    cases f y with
    | none => simp [ih]
    | some a =>
      simp only [List.filter_cons]
      by_cases h : a.1 = k <;> simp [h, ih]

theorem answersAt_eq (k : Sock) (o : List SysOut) : answersAt k o = o.filterMap (answerAt k) :=
  filter_map_at answer k o

theorem questionsAt_eq (k : Sock) (xs : List (SysAction F)) : questionsAt k xs = xs.filterMap fun x =>
    (question x).bind fun a => if a.1 = k then some a.2 else none := filter_map_at question k xs

theorem onlyOf_answer (k : Sock) : OnlyOf (sockParty k) (answerAt k) := by
  intro q y hy hq
  match y with
  | .broadcast _ => rfl
  | .rpc (none, b, a) =>
    have : Sock.portmap ≠ k := fun h => hq (by rw [← h]; exact hy)
    simp [answerAt, answer, this]
  | .rpc (some p, b, a) =>
    have : Sock.rpc p ≠ k := fun h => hq (by rw [← h]; exact hy)
    simp [answerAt, answer, this]
  | .lib (.toMain c _) =>
    have : Sock.main c ≠ k := fun h => hq (by rw [← h]; exact hy)
    simp [answerAt, answer, this]
  | .lib (.toHandler c _) =>
    have : Sock.lib c ≠ k := fun h => hq (by rw [← h]; exact hy)
    simp [answerAt, answer, this]
  | .status (_, _, _) =>
    have : Sock.status ≠ k := fun h => hq (by rw [← h]; exact hy)
    simp [answerAt, answer, this]

theorem question_party (x : SysAction F) (a : Sock × Spec.Party) (h : question x = some a) :
    x.party = sockParty a.1 := by
  unfold question at h
  split at h <;> first | (cases h; rfl) | exact nomatch h

theorem questionsAt_steps (k : Sock) (xs : List (SysAction F)) :
    questionsAt k (stepsOf (sockParty k) xs) = questionsAt k xs := by
  rw [questionsAt_eq, questionsAt_eq]
  induction xs with
  | nil => rfl
  | cons x xs ih =>
    simp only [stepsOf, List.filter_cons] at ih ⊢
    split
    · simp only [List.filterMap_cons, ih]
    next h =>
      have : ((question x).bind fun a => if a.1 = k then some a.2 else none) = none := by
        cases hq : question x with
        | none => rfl
        | some a =>
          have : a.1 ≠ k := fun hk => h ((isOf_party _ _).2 (hk ▸ question_party x a hq))
          simp [this]
      rw [List.filterMap_cons, this]
      exact ih

/-- Who sends an answer. -/
def source : SysOut → PDJ.Party
  | .broadcast _ => .main
  | .rpc (none, _) => .portmapper
  | .rpc (some q, _) => .port q
  | .lib (.toMain c _) => .conn c
  | .lib (.toHandler h _) => .handler h
  | .status _ => .status

/-- An answer of a party. -/
def answerOf (k : PDJ.Party) (y : SysOut) : Option SysOut :=
  if (answer y).isSome ∧ source y = k then some y else none

theorem onlyOf_answerOf (k : PDJ.Party) : OnlyOf k (answerOf k) := by
  intro q y hy hq
  unfold answerOf
  rw [if_neg]
  rintro ⟨ha, rfl⟩
  match y with
  | .broadcast _ => exact nomatch ha
  | .rpc (none, _, _) => exact hq hy
  | .rpc (some p, _, _) => exact hq hy
  | .lib (.toMain c _) => exact hq hy
  | .lib (.toHandler c _) => exact hq hy
  | .status (_, _, _) => exact hq hy

theorem filter_answerOf (k : PDJ.Party) (l : List SysOut) :
    ((l.filter fun y => (answer y).isSome).filter fun y => source y = k) = l.filterMap (answerOf k) := by
  induction l with
  | nil => rfl
  | cons y l ih =>
    simp only [List.filter_cons, List.filterMap_cons, answerOf] at ih ⊢
    by_cases h1 : (answer y).isSome = true <;> by_cases h2 : source y = k <;> simp [h1, h2, ih]

theorem bytes_answers (l : List SysOut) :
    (l.map datagramBytes).sum = ((l.filter fun y => (answer y).isSome).map datagramBytes).sum := by
  induction l with
  | nil => rfl
  | cons y l ih =>
    simp only [List.filter_cons]
    match y with
    | .broadcast _ => simp [answer, datagramBytes, ih]
    | .rpc (none, _, _) => simp [answer, ih]
    | .rpc (some p, _, _) => simp [answer, ih]
    | .lib (.toMain c _) => simp [answer, ih]
    | .lib (.toHandler c _) => simp [answer, ih]
    | .status (_, _, _) => simp [answer, ih]

end PDJ
