import Verif.Lemmas.Database

/-!
# Properties C19-C23: the track database

`l` is the list of scanned tracks, each with the hash iteration order its insertion happens to see.
The results hold in both overflow modes.
-/

namespace PDJ

open Spec

/-- A scan of three tracks by two artists, used in the examples. -/
def sampleScan : List (IterOrder × MetaTrack) :=
  [(.id, ⟨['A'], ['x'], some 12800, [], [0x2f, 0x78], 10⟩),
   (.id, ⟨['B'], ['y'], none, [], [0x2f, 0x79], 20⟩),
   (.id, ⟨['A'], ['z'], none, [], [0x2f, 0x7a], 30⟩)]

theorem sampleScan_fits : sampleScan.length ≤ capacity := by decide

example (m : Mode) : ∃ db, Db.build m sampleScan = .ok db :=
  ⟨_, build_catalog m sampleScan sampleScan_fits⟩

/-- C19: after indexing, the artists' names are exactly the distinct scanned names, each once; two
artists never share a name or an id; and every artist has a track. -/
theorem C19_artists_deduplicated (m : Mode) (l : List (IterOrder × MetaTrack))
    (h : l.length ≤ capacity) {db : Db} (hb : Db.build m l = .ok db) (io io' : IterOrder) :
    ((db.allArtists io).map (·.name)).Nodup ∧
    ((db.allArtists io).map (·.id)).Nodup ∧
    (∀ n, n ∈ (db.allArtists io).map (·.name) ↔ ∃ t ∈ l, t.2.artist = n) ∧
    ∀ a ∈ db.allArtists io, db.titleByArtist io' a.id ≠ [] := by
  rw [build_catalog m l h, Outcome.ok.injEq] at hb
  subst hb
  have hp := allArtists_perm io (l.map (·.2))
  have hlen : (l.map (·.2)).length ≤ capacity := by simpa using h
  refine ⟨?_, ?_, ?_, ?_⟩
  · rw [(hp.map _).nodup_iff, catalogArtists_names]
    exact nodup_distinct _
  · rw [(hp.map _).nodup_iff, catalogArtists_ids]
    exact nodup_ids _ (Nat.le_trans (length_artistNames_le _) hlen)
  · intro n
    rw [(hp.map _).mem_iff, catalogArtists_names, artistNames, mem_distinct]
    simp
  · intro a ha hnil
    rw [hp.mem_iff] at ha
    have hname : a.name ∈ artistNames (l.map (·.2)) := by
      rw [← catalogArtists_names]
      exact List.mem_map.2 ⟨a, ha, rfl⟩
    have ha' : a = ⟨artistIdOf (l.map (·.2)) a.name, a.name⟩ :=
      List.inj_on_of_nodup_map (f := Artist.name)
        (by rw [catalogArtists_names]; exact nodup_distinct _) ha (artistOf_catalog hname) rfl
    rw [artistNames, mem_distinct, List.mem_map] at hname
    obtain ⟨t, ht, htn⟩ := hname
    obtain ⟨i, hi, rfl⟩ := List.mem_iff_getElem.1 ht
    have hmem : (catalogTracks (l.map (·.2)))[i]'(by simpa [catalogTracks] using hi) ∈
        (catalogDb (l.map (·.2))).titleByArtist io' a.id := by
      rw [(titleByArtist_perm io' _ _).mem_iff, List.mem_filter]
      refine ⟨List.getElem_mem _, ?_⟩
      rw [ha']
      simp only [catalogTracks, List.getElem_mapIdx, decide_eq_true_eq]
      rw [htn]
    rw [hnil] at hmem
    exact absurd hmem (by simp)

/-- C20: the k-th scanned track (from 0) is retrieved under id k + 2 with its title, path, size and
tempo, and its artist is retrieved with the scanned name; no other id is in the library. -/
theorem C20_tracks_retrievable (m : Mode) (l : List (IterOrder × MetaTrack))
    (h : l.length ≤ capacity) {db : Db} (hb : Db.build m l = .ok db) :
    (∀ (k : Nat) (hk : k < l.length), ∃ tr, db.getTrack (UInt32.ofNat (k + 2)) = some tr ∧
      tr.id = UInt32.ofNat (k + 2) ∧ tr.title = l[k].2.title ∧ tr.path = l[k].2.path ∧
      tr.size = l[k].2.size ∧ tr.bpm = l[k].2.bpm ∧
      db.getArtist tr.artistId = some ⟨tr.artistId, l[k].2.artist⟩) ∧
    ∀ id : UInt32, (∀ k < l.length, id ≠ UInt32.ofNat (k + 2)) → db.getTrack id = none := by
  rw [build_catalog m l h, Outcome.ok.injEq] at hb
  subst hb
  have hlen : (l.map (·.2)).length ≤ capacity := by simpa using h
  constructor
  · intro k hk
    have hk' : k < (catalogTracks (l.map (·.2))).length := by simpa [catalogTracks] using hk
    have hmem := List.getElem_mem hk'
    have hget := getTrack_catalog hlen hmem
    have hid : ((catalogTracks (l.map (·.2)))[k]).id = UInt32.ofNat (k + 2) := by
      simp [catalogTracks]
    rw [hid] at hget
    refine ⟨_, hget, hid, ?_, ?_, ?_, ?_, ?_⟩
    · simp [catalogTracks]
    · simp [catalogTracks]
    · simp [catalogTracks]
    · simp [catalogTracks]
    · have haid : ((catalogTracks (l.map (·.2)))[k]).artistId =
          artistIdOf (l.map (·.2)) l[k].2.artist := by simp [catalogTracks]
      rw [haid]
      have hn : l[k].2.artist ∈ artistNames (l.map (·.2)) := by
        rw [artistNames, mem_distinct]
        simp only [List.map_map, List.mem_map]
        exact ⟨l[k], List.getElem_mem _, rfl⟩
      exact getArtist_catalog hlen (artistOf_catalog hn)
  · intro id hid
    apply mapGet_keyed_none
    intro a ha
    obtain ⟨k, hk, hk2⟩ := mem_catalogTracks_id ha
    rw [hk2]
    exact fun e => hid k (by simpa using hk) e.symm

/-- C21: the title lists of all artists, taken together, hold every track of the library exactly
once, whatever iteration order each list is produced in; the announced counts add up. -/
theorem C21_titles_partition_library (m : Mode) (l : List (IterOrder × MetaTrack))
    (h : l.length ≤ capacity) {db : Db} (hb : Db.build m l = .ok db) (io : IterOrder)
    (ios : Artist → IterOrder) :
    (((db.allArtists io).flatMap (fun a => db.titleByArtist (ios a) a.id)).map (·.id)).Perm
      ((List.range l.length).map (fun k => UInt32.ofNat (k + 2))) ∧
    (((db.allArtists io).flatMap (fun a => db.titleByArtist (ios a) a.id)).map (·.id)).Nodup ∧
    ((db.allArtists io).map (fun a => (numberOfTracksByArtist (ios a) db a.id).toNat)).sum =
      l.length := by
  rw [build_catalog m l h, Outcome.ok.injEq] at hb
  subst hb
  have hlen : (l.map (·.2)).length ≤ capacity := by simpa using h
  have hA := allArtists_perm io (l.map (·.2))
  have hperm : (((catalogDb (l.map (·.2))).allArtists io).flatMap
      (fun a => (catalogDb (l.map (·.2))).titleByArtist (ios a) a.id)).Perm
        (catalogTracks (l.map (·.2))) := by
    refine (flatMap_perm_congr (g := fun a =>
      (catalogTracks (l.map (·.2))).filter (fun t => t.artistId = a.id))
      (fun a _ => titleByArtist_perm _ _ _)).trans ?_
    refine (hA.flatMap_right _).trans ?_
    have := flatMap_filter_perm Track.artistId (catalogTracks (l.map (·.2)))
      ((catalogArtists (l.map (·.2))).map (·.id))
      (by rw [catalogArtists_ids]
          exact nodup_ids _ (Nat.le_trans (length_artistNames_le _) hlen))
    rw [List.flatMap_map] at this
    refine this.trans (List.Perm.of_eq ?_)
    rw [List.filter_eq_self]
    intro t ht
    simpa using catalogTracks_artistId ht
  have hids := hperm.map (·.id)
  rw [catalogTracks_ids, List.length_map] at hids
  refine ⟨hids, ?_, ?_⟩
  · rw [hids.nodup_iff]
    exact nodup_ids _ h
  · have hle : ∀ a, (numberOfTracksByArtist (ios a) (catalogDb (l.map (·.2))) a.id).toNat =
        ((catalogDb (l.map (·.2))).titleByArtist (ios a) a.id).length := by
      intro a
      have h1 := (titleByArtist_perm (ios a) (l.map (·.2)) a.id).length_eq
      have h2 := List.length_filter_le (fun t : Track => decide (t.artistId = a.id))
        (catalogTracks (l.map (·.2)))
      have h3 : (catalogTracks (l.map (·.2))).length = l.length := by simp [catalogTracks]
      simp only [capacity] at h
      simp only [numberOfTracksByArtist, UInt32.toNat_ofNat']
      omega
    simp only [hle]
    have := hperm.length_eq
    rw [List.length_flatMap] at this
    rw [this]
    simp [catalogTracks]

/-- C22: ids are handed out consecutively from 2 - in particular 0 and 1 are never used - and
indexing more tracks changes or removes no existing row. -/
theorem C22_ids_dense_and_stable (m : Mode) (l r : List (IterOrder × MetaTrack))
    (h : (l ++ r).length ≤ capacity) {db db' : Db} (hb : Db.build m l = .ok db)
    (hb' : Db.build m (l ++ r) = .ok db') :
    (∀ id, (∃ tr, db.getTrack id = some tr) ↔ 2 ≤ id.toNat ∧ id.toNat < l.length + 2) ∧
    (∀ id, (∃ a, db.getArtist id = some a) ↔
      2 ≤ id.toNat ∧ id.toNat < (artistNames (l.map (·.2))).length + 2) ∧
    (∀ id tr, db.getTrack id = some tr → db'.getTrack id = some tr) ∧
    (∀ id a, db.getArtist id = some a → db'.getArtist id = some a) := by
  have hl : l.length ≤ capacity := by
    rw [List.length_append] at h; omega
  rw [build_catalog m l hl, Outcome.ok.injEq] at hb
  rw [build_catalog m (l ++ r) h, Outcome.ok.injEq] at hb'
  subst hb hb'
  have hlen : (l.map (·.2)).length ≤ capacity := by simpa using hl
  have hlen' : ((l ++ r).map (·.2)).length ≤ capacity := by simpa using h
  refine ⟨?_, ?_, ?_, ?_⟩
  · intro id
    constructor
    · rintro ⟨tr, htr⟩
      obtain ⟨hm, rfl⟩ := mapGet_keyed_some htr
      obtain ⟨k, hk, hid⟩ := mem_catalogTracks_id hm
      simp only [List.length_map, capacity] at hk hl
      rw [hid, UInt32.toNat_ofNat']
      omega
    · rintro ⟨h1, h2⟩
      have hlt : id.toNat - 2 < (catalogTracks (l.map (·.2))).length := by
        simp [catalogTracks]; omega
      refine ⟨(catalogTracks (l.map (·.2)))[id.toNat - 2], ?_⟩
      have hg := getTrack_catalog hlen (List.getElem_mem hlt)
      have hid : ((catalogTracks (l.map (·.2)))[id.toNat - 2]).id = id := by
        simp only [catalogTracks, List.getElem_mapIdx]
        rw [Nat.sub_add_cancel h1, UInt32.ofNat_toNat]
      rw [hid] at hg
      exact hg
  · intro id
    constructor
    · rintro ⟨tr, htr⟩
      obtain ⟨hm, rfl⟩ := mapGet_keyed_some htr
      obtain ⟨k, hk, hid⟩ := mem_catalogArtists_id hm
      have := length_artistNames_le (l.map (·.2))
      simp only [List.length_map, capacity] at this hl
      rw [hid, UInt32.toNat_ofNat']
      omega
    · rintro ⟨h1, h2⟩
      have hlt : id.toNat - 2 < (catalogArtists (l.map (·.2))).length := by
        simp [catalogArtists]; omega
      refine ⟨(catalogArtists (l.map (·.2)))[id.toNat - 2], ?_⟩
      have hg := getArtist_catalog hlen (List.getElem_mem hlt)
      have hid : ((catalogArtists (l.map (·.2)))[id.toNat - 2]).id = id := by
        simp only [catalogArtists, List.getElem_mapIdx]
        rw [Nat.sub_add_cancel h1, UInt32.ofNat_toNat]
      rw [hid] at hg
      exact hg
  · intro id tr htr
    obtain ⟨hm, rfl⟩ := mapGet_keyed_some htr
    refine getTrack_catalog hlen' ?_
    obtain ⟨k, hk, rfl⟩ := List.mem_iff_getElem.1 hm
    have hk1 : k < l.length := by simpa [catalogTracks] using hk
    refine List.mem_iff_getElem.2 ⟨k, by simp [catalogTracks]; omega, ?_⟩
    have hin : l[k].2.artist ∈ (l.map (·.2)).map (·.artist) := by
      simp only [List.map_map, List.mem_map]
      exact ⟨l[k], List.getElem_mem _, rfl⟩
    have := artistIdOf_append (r := r.map (·.2)) hin
    have hk2 : k < (l.map (·.2)).length := by simpa using hk1
    simp [catalogTracks, List.getElem_append_left hk2, this]
  · intro id a ha
    obtain ⟨hm, rfl⟩ := mapGet_keyed_some ha
    refine getArtist_catalog hlen' ?_
    obtain ⟨k, hk, rfl⟩ := List.mem_iff_getElem.1 hm
    have hk1 : k < (artistNames (l.map (·.2))).length := by simpa [catalogArtists] using hk
    have hpre : artistNames (l.map (·.2)) <+: artistNames ((l ++ r).map (·.2)) := by
      simp only [artistNames, List.map_append]
      exact distinct_append_prefix _ _
    have hk2 := Nat.lt_of_lt_of_le hk1 hpre.length_le
    refine List.mem_iff_getElem.2 ⟨k, by simpa [catalogArtists] using hk2, ?_⟩
    simp only [catalogArtists, List.getElem_mapIdx, Artist.mk.injEq, true_and]
    exact (hpre.getElem hk1).symm

example : (sampleScan ++ sampleScan).length ≤ capacity := by decide

/-- C23 (full claim: ids are never reused).  Below capacity no id is handed out twice. -/
theorem C23_no_id_reuse_below_capacity_partial (m : Mode) (l : List (IterOrder × MetaTrack))
    (h : l.length ≤ capacity) {db : Db} (hb : Db.build m l = .ok db) :
    (db.tracks.rows.map (·.1)).Nodup ∧ db.tracks.rows.length = l.length := by
  rw [build_catalog m l h, Outcome.ok.injEq] at hb
  subst hb
  constructor
  · have : ((catalogDb (l.map (·.2))).tracks.rows.map (·.1)) =
        (catalogTracks (l.map (·.2))).map (·.id) := by
      simp [catalogDb, keyed, Function.comp_def]
    rw [this, catalogTracks_ids]
    exact nodup_ids _ (by simpa using h)
  · simp [catalogDb, keyed, catalogTracks]

/-- C23, with overflow checks: indexing succeeds exactly up to capacity, and panics beyond. -/
theorem C23_debug_panics_exactly_beyond_capacity (l : List (IterOrder × MetaTrack)) :
    Db.build .debug l = .panic ↔ capacity < l.length := by
  constructor
  · intro h
    by_contra hc
    rw [build_catalog .debug l (by omega)] at h
    simp at h
  · exact build_full_debug l

/-- C23, without overflow checks: the third track beyond capacity takes id 2 again and replaces the
first track of the library. -/
theorem C23_release_overwrites_beyond_capacity (l : List (IterOrder × MetaTrack))
    (h : l.length = capacity) (x y z : IterOrder × MetaTrack) :
    ∃ db tr, Db.build .release (l ++ [x, y, z]) = .ok db ∧ db.getTrack 2 = some tr ∧
      tr.title = z.2.title ∧ tr.path = z.2.path := by
  have h1 := build_catalog .release l (Nat.le_of_eq h)
  rw [Db.build] at h1
  obtain ⟨d1, a1, e1, t1⟩ := index_release x.1 (catalogDb (l.map (·.2))) x.2
  obtain ⟨d2, a2, e2, t2⟩ := index_release y.1 d1 y.2
  obtain ⟨d3, a3, e3, t3⟩ := index_release z.1 d2 z.2
  have hc : (catalogDb (l.map (·.2))).tracks.counter + 1 = 0 := by
    show UInt32.ofNat ((l.map (·.2)).length + 1) + 1 = 0
    rw [List.length_map, h]
    decide
  have c1 : d1.tracks.counter = 0 := by rw [t1]; exact hc
  have c2 : d2.tracks.counter = 1 := by rw [t2]; show d1.tracks.counter + 1 = 1; rw [c1]; rfl
  refine ⟨d3, ⟨2, a3, z.2.title, z.2.path, z.2.size, z.2.bpm⟩, ?_, ?_, rfl, rfl⟩
  · rw [Db.build, indexAll_append, h1]
    show Db.indexAll .release _ [x, y, z] = _
    simp only [Db.indexAll, e1, Outcome.bind_ok, e2, e3]
  · rw [Db.getTrack, t3]
    have c3 : d2.tracks.counter + 1 = 2 := by rw [c2]; rfl
    simp only [c3]
    exact mapGet_mapInsert_self _ _ _

example : ∃ l : List (IterOrder × MetaTrack), l.length = capacity :=
  ⟨List.replicate capacity (.id, ⟨[], [], none, [], [], 0⟩), List.length_replicate⟩

/-! ## Instances for the sample scan -/

theorem sampleScan_build (m : Mode) :
    Db.build m sampleScan = .ok (catalogDb (sampleScan.map (·.2))) :=
  build_catalog m sampleScan sampleScan_fits

example := C19_artists_deduplicated .debug _ sampleScan_fits (sampleScan_build _) .id .id
example := C20_tracks_retrievable .debug _ sampleScan_fits (sampleScan_build _)
example := C21_titles_partition_library .debug _ sampleScan_fits (sampleScan_build _) .id (fun _ => .id)
example := C23_no_id_reuse_below_capacity_partial .debug _ sampleScan_fits (sampleScan_build _)

end PDJ
