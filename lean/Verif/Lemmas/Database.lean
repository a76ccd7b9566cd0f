import Verif.Spec.Catalog
import Mathlib.Data.List.Nodup
import Mathlib.Data.List.Induction
import Mathlib.Data.List.Perm.Basic

/-!
# Lemmas about the track database
-/

namespace PDJ

open Spec

/-! ## distinct -/

theorem distinct_append (l : List Str) (s : Str) :
    distinct (l ++ [s]) = if s ∈ distinct l then distinct l else distinct l ++ [s] := by
  unfold distinct
  rw [List.foldl_append]
  rfl

theorem mem_distinct {l : List Str} {s : Str} : s ∈ distinct l ↔ s ∈ l := by
  induction l using List.reverseRecOn with
  | nil => simp [distinct]
  | append_singleton l x ih =>
    rw [distinct_append]
    split
    · rename_i h
      simp only [ih, List.mem_append, List.mem_singleton]
      constructor
      · exact Or.inl
      · rintro (h' | rfl)
        · exact h'
        · exact ih.1 h
    · simp only [List.mem_append, List.mem_singleton, ih]

theorem nodup_distinct (l : List Str) : (distinct l).Nodup := by
  induction l using List.reverseRecOn with
  | nil => simp [distinct]
  | append_singleton l x ih =>
    rw [distinct_append]
    split
    · exact ih
    · rename_i h
      rw [List.nodup_append]
      refine ⟨ih, by simp, ?_⟩
      intro a ha b hb
      simp only [List.mem_singleton] at hb
      subst hb
      rintro rfl
      exact h ha

theorem length_distinct_le (l : List Str) : (distinct l).length ≤ l.length := by
  induction l using List.reverseRecOn with
  | nil => simp [distinct]
  | append_singleton l x ih =>
    rw [distinct_append]
    split <;> simp <;> omega

theorem distinct_append_prefix (l r : List Str) : distinct l <+: distinct (l ++ r) := by
  induction r using List.reverseRecOn with
  | nil => simp
  | append_singleton r x ih =>
    rw [← List.append_assoc, distinct_append]
    split
    · exact ih
    · exact ih.trans (List.prefix_append _ _)

theorem idxOf_distinct_append {l r : List Str} {s : Str} (h : s ∈ l) :
    (distinct (l ++ r)).idxOf s = (distinct l).idxOf s := by
  obtain ⟨t, ht⟩ := distinct_append_prefix l r
  rw [← ht, List.idxOf_append_of_mem (mem_distinct.2 h)]

/-! ## association lists -/

theorem filter_ne_self {α : Type} {k : UInt32} {l : List (UInt32 × α)}
    (h : ∀ e ∈ l, e.1 ≠ k) : l.filter (fun e => e.1 ≠ k) = l := by
  rw [List.filter_eq_self]
  intro e he
  simpa using h e he

theorem mapInsert_fresh {α : Type} {k : UInt32} {v : α} {l : List (UInt32 × α)}
    (h : ∀ e ∈ l, e.1 ≠ k) : mapInsert k v l = l ++ [(k, v)] := by
  rw [mapInsert, filter_ne_self h]

/-- Key-indexed rows of a list of records. -/
def keyed {α : Type} (key : α → UInt32) (l : List α) : List (UInt32 × α) := l.map (fun a => (key a, a))

theorem mapGet_keyed {α : Type} {key : α → UInt32} {l : List α} (hn : (l.map key).Nodup)
    {a : α} (ha : a ∈ l) : mapGet (key a) (keyed key l) = some a := by
  induction l with
  | nil => simp at ha
  | cons b l ih =>
    simp only [List.map_cons, List.nodup_cons, List.mem_map, not_exists, not_and] at hn
    rw [List.mem_cons] at ha
    by_cases hb : key b = key a
    · have : a = b := by
        rcases ha with rfl | ha
        · rfl
        · exact absurd hb.symm (hn.1 a ha)
      subst this
      simp [mapGet, keyed]
    · have ha' : a ∈ l := by
        rcases ha with rfl | ha
        · exact absurd rfl hb
        · exact ha
      have := ih hn.2 ha'
      simp only [mapGet, keyed, List.map_cons, List.find?_cons, hb, decide_false] at this ⊢
      exact this

theorem mapGet_keyed_none {α : Type} {key : α → UInt32} {l : List α} {k : UInt32}
    (h : ∀ a ∈ l, key a ≠ k) : mapGet k (keyed key l) = none := by
  simp only [mapGet, keyed, Option.map_eq_none_iff, List.find?_eq_none, List.mem_map]
  rintro e ⟨a, ha, rfl⟩
  simpa using h a ha

/-! ## the catalogue as rows -/

theorem ofNat_inj {a b : Nat} (ha : a < 4294967296) (hb : b < 4294967296)
    (h : UInt32.ofNat a = UInt32.ofNat b) : a = b := by
  have := congrArg UInt32.toNat h
  simp only [UInt32.toNat_ofNat'] at this
  omega

theorem artistIdOf_append {ts : List MetaTrack} {r : List MetaTrack} {n : Str}
    (h : n ∈ ts.map (·.artist)) : artistIdOf (ts ++ r) n = artistIdOf ts n := by
  simp only [artistIdOf, artistNames, List.map_append, idxOf_distinct_append h]

theorem catalogTracks_append (ts : List MetaTrack) (t : MetaTrack) :
    catalogTracks (ts ++ [t]) = catalogTracks ts ++
      [⟨UInt32.ofNat (ts.length + 2), artistIdOf (ts ++ [t]) t.artist, t.title, t.path, t.size,
        t.bpm⟩] := by
  simp only [catalogTracks, List.mapIdx_append, List.mapIdx_cons, List.mapIdx_nil, Nat.zero_add]
  congr 1
  apply List.ext_getElem (by simp)
  intro i h1 h2
  simp only [List.length_mapIdx] at h1
  simp only [List.getElem_mapIdx]
  rw [artistIdOf_append (List.mem_map.2 ⟨ts[i], List.getElem_mem _, rfl⟩)]

theorem artistNames_append (ts : List MetaTrack) (t : MetaTrack) :
    artistNames (ts ++ [t]) =
      if t.artist ∈ artistNames ts then artistNames ts else artistNames ts ++ [t.artist] := by
  simp only [artistNames, List.map_append, List.map_cons, List.map_nil]
  exact distinct_append _ _

theorem length_artistNames_le (ts : List MetaTrack) : (artistNames ts).length ≤ ts.length := by
  have := length_distinct_le (ts.map (·.artist))
  simpa [artistNames] using this

theorem catalogArtists_append (ts : List MetaTrack) (t : MetaTrack) :
    catalogArtists (ts ++ [t]) =
      if t.artist ∈ artistNames ts then catalogArtists ts
      else catalogArtists ts ++ [⟨UInt32.ofNat ((artistNames ts).length + 2), t.artist⟩] := by
  rw [catalogArtists, artistNames_append]
  split
  · rfl
  · simp [catalogArtists, List.mapIdx_append]

theorem mem_catalogTracks_id {ts : List MetaTrack} {a : Track} (h : a ∈ catalogTracks ts) :
    ∃ k, k < ts.length ∧ a.id = UInt32.ofNat (k + 2) := by
  obtain ⟨i, hi, rfl⟩ := List.mem_iff_getElem.1 h
  simp only [catalogTracks, List.length_mapIdx] at hi
  exact ⟨i, hi, by simp [catalogTracks]⟩

theorem mem_catalogArtists_id {ts : List MetaTrack} {a : Artist} (h : a ∈ catalogArtists ts) :
    ∃ k, k < (artistNames ts).length ∧ a.id = UInt32.ofNat (k + 2) := by
  obtain ⟨i, hi, rfl⟩ := List.mem_iff_getElem.1 h
  simp only [catalogArtists, List.length_mapIdx] at hi
  exact ⟨i, hi, by simp [catalogArtists]⟩

theorem nodup_ids (n : Nat) (h : n ≤ capacity) :
    ((List.range n).map (fun k => UInt32.ofNat (k + 2))).Nodup := by
  refine List.Nodup.map_on ?_ List.nodup_range
  intro a ha b hb hab
  simp only [List.mem_range] at ha hb
  simp only [capacity] at h
  have := ofNat_inj (by omega) (by omega) hab
  omega

theorem catalogTracks_ids (ts : List MetaTrack) :
    (catalogTracks ts).map (·.id) = (List.range ts.length).map (fun k => UInt32.ofNat (k + 2)) := by
  apply List.ext_getElem (by simp [catalogTracks])
  intro i h1 h2
  simp [catalogTracks]

theorem catalogArtists_ids (ts : List MetaTrack) :
    (catalogArtists ts).map (·.id) =
      (List.range (artistNames ts).length).map (fun k => UInt32.ofNat (k + 2)) := by
  apply List.ext_getElem (by simp [catalogArtists])
  intro i h1 h2
  simp [catalogArtists]

theorem catalogArtists_names (ts : List MetaTrack) :
    (catalogArtists ts).map (·.name) = artistNames ts := by
  apply List.ext_getElem (by simp [catalogArtists])
  intro i h1 h2
  simp [catalogArtists]

/-! ## the database holds the catalogue -/

/-- The database state after indexing the tracks `ts`. -/
def catalogDb (ts : List MetaTrack) : Db :=
  ⟨⟨keyed (·.id) (catalogArtists ts), UInt32.ofNat ((artistNames ts).length + 1)⟩,
   ⟨keyed (·.id) (catalogTracks ts), UInt32.ofNat (ts.length + 1)⟩⟩

theorem catalogDb_nil : catalogDb [] = Db.empty := rfl

theorem seqIncrement_ofNat (m : Mode) (n : Nat) (h : n + 1 < 4294967296) :
    seqIncrement m (UInt32.ofNat n) = .ok (UInt32.ofNat (n + 1)) := by
  have e : UInt32.ofNat n + 1 = UInt32.ofNat (n + 1) := by
    rw [UInt32.ofNat_add]; rfl
  cases m
  · simp only [seqIncrement, UInt32.toNat_ofNat']
    rw [if_pos (by omega), e]
  · simp only [seqIncrement, e]

theorem find_by_name {io : IterOrder} {l : List Artist} (hn : (l.map (·.name)).Nodup)
    {a : Artist} (ha : a ∈ l) :
    (io.f (keyed (·.id) l)).find? (fun e => e.2.name = a.name) = some (a.id, a) := by
  have hm : ∀ e ∈ io.f (keyed (·.id) l), e.2.name = a.name → e = (a.id, a) := by
    intro e he hname
    rw [(io.perm _).mem_iff, keyed, List.mem_map] at he
    obtain ⟨b, hb, rfl⟩ := he
    have : b = a := List.inj_on_of_nodup_map hn hb ha hname
    rw [this]
  cases hf : (io.f (keyed (·.id) l)).find? (fun e => e.2.name = a.name) with
  | none =>
    exfalso
    rw [List.find?_eq_none] at hf
    refine hf (a.id, a) ?_ (by simp)
    rw [(io.perm _).mem_iff]
    exact List.mem_map.2 ⟨a, ha, rfl⟩
  | some e =>
    have h1 := List.find?_some hf
    have h2 := List.mem_of_find?_eq_some hf
    rw [hm e h2 (by simpa using h1)]

theorem find_by_name_none {io : IterOrder} {l : List Artist} {n : Str}
    (hn : n ∉ l.map (·.name)) :
    (io.f (keyed (·.id) l)).find? (fun e => e.2.name = n) = none := by
  rw [List.find?_eq_none]
  intro e he
  rw [(io.perm _).mem_iff, keyed, List.mem_map] at he
  obtain ⟨b, hb, rfl⟩ := he
  simp only [decide_eq_true_eq]
  intro h
  exact hn (List.mem_map.2 ⟨b, hb, h⟩)

theorem artistInsert_catalog (m : Mode) (io : IterOrder) (ts : List MetaTrack) (t : MetaTrack)
    (h : ts.length + 1 ≤ capacity) :
    artistInsert m io (catalogDb ts).artists t.artist =
      .ok (artistIdOf (ts ++ [t]) t.artist, (catalogDb (ts ++ [t])).artists) := by
  have hlen := length_artistNames_le ts
  simp only [capacity] at h
  simp only [catalogDb, artistInsert]
  by_cases hm : t.artist ∈ artistNames ts
  · have hi := List.idxOf_lt_length_of_mem hm
    have hlt : (artistNames ts).idxOf t.artist < (catalogArtists ts).length := by
      simpa [catalogArtists] using hi
    have ha : (catalogArtists ts)[(artistNames ts).idxOf t.artist] =
        ⟨artistIdOf ts t.artist, t.artist⟩ := by
      simp only [catalogArtists, List.getElem_mapIdx, artistIdOf, Artist.mk.injEq, true_and]
      exact List.getElem_idxOf hi
    have hmem : (⟨artistIdOf ts t.artist, t.artist⟩ : Artist) ∈ catalogArtists ts := by
      rw [← ha]; exact List.getElem_mem _
    have hf := find_by_name (io := io) (l := catalogArtists ts)
      (by rw [catalogArtists_names]; exact nodup_distinct _) hmem
    rw [hf]
    rw [catalogArtists_append, if_pos hm, artistNames_append, if_pos hm]
    rw [artistIdOf_append (mem_distinct.1 hm)]
  · rw [find_by_name_none (by rw [catalogArtists_names]; exact hm)]
    rw [seqIncrement_ofNat m _ (by omega)]
    have hfresh : ∀ e ∈ keyed (·.id) (catalogArtists ts),
        e.1 ≠ UInt32.ofNat ((artistNames ts).length + 1 + 1) := by
      intro e he
      rw [keyed, List.mem_map] at he
      obtain ⟨a, ha, rfl⟩ := he
      obtain ⟨k, hk, hid⟩ := mem_catalogArtists_id ha
      simp only [hid]
      intro hh
      have := ofNat_inj (by omega) (by omega) hh
      omega
    simp only [mapInsert_fresh hfresh]
    rw [catalogArtists_append, if_neg hm, artistNames_append, if_neg hm]
    have hid : artistIdOf (ts ++ [t]) t.artist = UInt32.ofNat ((artistNames ts).length + 2) := by
      rw [artistIdOf, artistNames_append, if_neg hm, List.idxOf_append_of_notMem hm]
      simp
    rw [hid]
    simp [keyed, UInt32.add_assoc]

theorem index_catalog (m : Mode) (io : IterOrder) (ts : List MetaTrack) (t : MetaTrack)
    (h : ts.length + 1 ≤ capacity) :
    (catalogDb ts).index m io t = .ok (catalogDb (ts ++ [t])) := by
  simp only [Db.index, artistInsert_catalog m io ts t h]
  simp only [capacity] at h
  have hfresh : ∀ e ∈ keyed (·.id) (catalogTracks ts),
      e.1 ≠ UInt32.ofNat (ts.length + 1 + 1) := by
    intro e he
    rw [keyed, List.mem_map] at he
    obtain ⟨a, ha, rfl⟩ := he
    obtain ⟨k, hk, hid⟩ := mem_catalogTracks_id ha
    simp only [hid]
    intro hh
    have := ofNat_inj (by omega) (by omega) hh
    omega
  show (trackInsert m (catalogDb ts).tracks _ t.title t.path t.size t.bpm).bind _ = _
  simp only [trackInsert, catalogDb, seqIncrement_ofNat m _ (show ts.length + 1 + 1 < _ by omega),
    mapInsert_fresh hfresh]
  simp only [catalogTracks_append]
  simp [keyed, Outcome.bind, pure, UInt32.add_assoc]

theorem indexAll_catalog (m : Mode) (ts : List MetaTrack) (l : List (IterOrder × MetaTrack))
    (h : ts.length + l.length ≤ capacity) :
    (catalogDb ts).indexAll m l = .ok (catalogDb (ts ++ l.map (·.2))) := by
  induction l generalizing ts with
  | nil => simp [Db.indexAll]
  | cons x l ih =>
    obtain ⟨io, t⟩ := x
    simp only [List.length_cons] at h
    simp only [Db.indexAll, index_catalog m io ts t (by omega)]
    have := ih (ts ++ [t]) (by simp; omega)
    show (catalogDb (ts ++ [t])).indexAll m l = _
    rw [this]
    simp

theorem build_catalog (m : Mode) (l : List (IterOrder × MetaTrack)) (h : l.length ≤ capacity) :
    Db.build m l = .ok (catalogDb (l.map (·.2))) := by
  have := indexAll_catalog m [] l (by simpa using h)
  simpa [Db.build, catalogDb_nil] using this

/-! ## exhaustion of the id counter -/

theorem seqIncrement_max_debug : seqIncrement .debug (UInt32.ofNat (capacity + 1)) = .panic := by
  decide

theorem indexAll_append (m : Mode) (db : Db) (l r : List (IterOrder × MetaTrack)) :
    db.indexAll m (l ++ r) = (db.indexAll m l).bind (fun d => d.indexAll m r) := by
  induction l generalizing db with
  | nil => rfl
  | cons x l ih =>
    obtain ⟨io, t⟩ := x
    simp only [List.cons_append, Db.indexAll]
    cases h : db.index m io t with
    | panic => rfl
    | ok d => exact ih d

theorem index_full_debug (io : IterOrder) (ts : List MetaTrack) (t : MetaTrack)
    (h : ts.length = capacity) : (catalogDb ts).index .debug io t = .panic := by
  simp only [Db.index]
  cases artistInsert .debug io (catalogDb ts).artists t.artist with
  | panic => rfl
  | ok x =>
    show (trackInsert .debug (catalogDb ts).tracks x.1 t.title t.path t.size t.bpm).bind _ = _
    simp only [trackInsert, catalogDb, h, seqIncrement_max_debug]
    rfl

theorem build_full_debug (l : List (IterOrder × MetaTrack)) (h : capacity < l.length) :
    Db.build .debug l = .panic := by
  have e : l = l.take capacity ++ l.drop capacity := (List.take_append_drop _ _).symm
  have hlen : (l.take capacity).length = capacity := by
    rw [List.length_take]; omega
  have h1 := build_catalog .debug (l.take capacity) (Nat.le_of_eq hlen)
  rw [Db.build] at h1 ⊢
  rw [e, indexAll_append, h1]
  cases hd : l.drop capacity with
  | nil =>
    have := congrArg List.length hd
    rw [List.length_drop, List.length_nil] at this
    omega
  | cons x r =>
    obtain ⟨io, t⟩ := x
    show Db.indexAll .debug _ ((io, t) :: r) = _
    simp only [Db.indexAll]
    rw [index_full_debug io _ t (by rw [List.length_map, hlen])]
    rfl

theorem artistInsert_release (io : IterOrder) (t : Table Artist) (n : Str) :
    ∃ x, artistInsert .release io t n = .ok x := by
  unfold artistInsert
  split
  · exact ⟨_, rfl⟩
  · exact ⟨_, rfl⟩

theorem index_release (io : IterOrder) (db : Db) (t : MetaTrack) :
    ∃ db' aid, db.index .release io t = .ok db' ∧
      db'.tracks = ⟨mapInsert (db.tracks.counter + 1)
        ⟨db.tracks.counter + 1, aid, t.title, t.path, t.size, t.bpm⟩ db.tracks.rows,
        db.tracks.counter + 1⟩ := by
  obtain ⟨⟨aid, arts⟩, hx⟩ := artistInsert_release io db.artists t.artist
  refine ⟨⟨arts, _⟩, aid, ?_, rfl⟩
  simp only [Db.index, hx]
  rfl

theorem mapGet_mapInsert_self {α : Type} (k : UInt32) (v : α) (l : List (UInt32 × α)) :
    mapGet k (mapInsert k v l) = some v := by
  have : (l.filter (fun e => e.1 ≠ k)).find? (fun e => e.1 = k) = none := by
    rw [List.find?_eq_none]
    intro e he
    rw [List.mem_filter] at he
    simpa using he.2
  simp only [mapGet, mapInsert, List.find?_append, this]
  simp

/-! ## grouping by key -/

theorem flatMap_filter_perm {α β : Type} [DecidableEq β] (key : α → β) (L : List α) (K : List β)
    (hn : K.Nodup) :
    (K.flatMap (fun k => L.filter (fun x => key x = k))).Perm (L.filter (fun x => key x ∈ K)) := by
  induction K with
  | nil => simp
  | cons k K ih =>
    rw [List.nodup_cons] at hn
    rw [List.flatMap_cons]
    refine ((ih hn.2).append_left _).trans ?_
    have h := List.filter_append_perm (fun x => decide (key x = k))
      (L.filter (fun x => decide (key x ∈ k :: K)))
    rw [List.filter_filter, List.filter_filter] at h
    refine List.Perm.trans (List.Perm.of_eq ?_) h
    congr 1
    · apply List.filter_congr
      intro x _
      by_cases hx : key x = k <;> simp [hx]
    · apply List.filter_congr
      intro x _
      by_cases hx : key x = k
      · simp [hx, hn.1]
      · simp [hx]

theorem flatMap_perm_congr {α β : Type} {l : List α} {f g : α → List β}
    (h : ∀ a ∈ l, (f a).Perm (g a)) : (l.flatMap f).Perm (l.flatMap g) := by
  induction l with
  | nil => simp
  | cons a l ih =>
    simp only [List.flatMap_cons]
    exact (h a (by simp)).append (ih (fun b hb => h b (by simp [hb])))

theorem allArtists_perm (io : IterOrder) (ts : List MetaTrack) :
    ((catalogDb ts).allArtists io).Perm (catalogArtists ts) := by
  have := (io.perm (keyed (·.id) (catalogArtists ts))).map (·.2)
  simpa [Db.allArtists, catalogDb, keyed, Function.comp_def] using this

theorem titleByArtist_perm (io : IterOrder) (ts : List MetaTrack) (aid : UInt32) :
    ((catalogDb ts).titleByArtist io aid).Perm
      ((catalogTracks ts).filter (fun t => t.artistId = aid)) := by
  have := ((io.perm (keyed (·.id) (catalogTracks ts))).map (·.2)).filter
    (fun t => decide (t.artistId = aid))
  simpa [Db.titleByArtist, catalogDb, keyed, Function.comp_def] using this

theorem catalogTracks_artistId {ts : List MetaTrack} {tr : Track} (h : tr ∈ catalogTracks ts) :
    tr.artistId ∈ (catalogArtists ts).map (·.id) := by
  obtain ⟨i, hi, rfl⟩ := List.mem_iff_getElem.1 h
  simp only [catalogTracks, List.length_mapIdx] at hi
  rw [catalogArtists_ids, List.mem_map]
  refine ⟨(artistNames ts).idxOf ts[i].artist, ?_, ?_⟩
  · rw [List.mem_range]
    apply List.idxOf_lt_length_of_mem
    exact mem_distinct.2 (List.mem_map.2 ⟨ts[i], List.getElem_mem _, rfl⟩)
  · simp [catalogTracks, artistIdOf]

theorem getTrack_catalog {ts : List MetaTrack} (h : ts.length ≤ capacity) {tr : Track}
    (hm : tr ∈ catalogTracks ts) : (catalogDb ts).getTrack tr.id = some tr :=
  mapGet_keyed (key := Track.id) (by rw [catalogTracks_ids]; exact nodup_ids _ h) hm

theorem getArtist_catalog {ts : List MetaTrack} (h : ts.length ≤ capacity) {a : Artist}
    (hm : a ∈ catalogArtists ts) : (catalogDb ts).getArtist a.id = some a :=
  mapGet_keyed (key := Artist.id) (by
    rw [catalogArtists_ids]
    exact nodup_ids _ (Nat.le_trans (length_artistNames_le ts) h)) hm

theorem mapGet_keyed_some {α : Type} {key : α → UInt32} {l : List α} {k : UInt32} {a : α}
    (h : mapGet k (keyed key l) = some a) : a ∈ l ∧ key a = k := by
  simp only [mapGet, Option.map_eq_some_iff] at h
  obtain ⟨e, he, rfl⟩ := h
  have h1 := List.find?_some he
  have h2 := List.mem_of_find?_eq_some he
  simp only [keyed, List.mem_map] at h2
  obtain ⟨b, hb, rfl⟩ := h2
  exact ⟨hb, by simpa using h1⟩

theorem artistOf_catalog {ts : List MetaTrack} {n : Str} (h : n ∈ artistNames ts) :
    (⟨artistIdOf ts n, n⟩ : Artist) ∈ catalogArtists ts := by
  have hi := List.idxOf_lt_length_of_mem h
  have hlt : (artistNames ts).idxOf n < (catalogArtists ts).length := by
    simpa [catalogArtists] using hi
  have ha : (catalogArtists ts)[(artistNames ts).idxOf n] = ⟨artistIdOf ts n, n⟩ := by
    simp only [catalogArtists, List.getElem_mapIdx, artistIdOf, Artist.mk.injEq, true_and]
    exact List.getElem_idxOf hi
  rw [← ha]; exact List.getElem_mem _

theorem artistIdOf_inj {ts : List MetaTrack} (h : ts.length ≤ capacity) {a b : Str}
    (ha : a ∈ artistNames ts) (hb : b ∈ artistNames ts)
    (hab : artistIdOf ts a = artistIdOf ts b) : a = b := by
  have h1 := getArtist_catalog h (artistOf_catalog ha)
  have h2 := getArtist_catalog h (artistOf_catalog hb)
  simp only [hab] at h1 h2
  rw [h1] at h2
  simpa using h2

end PDJ
