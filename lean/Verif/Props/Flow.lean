import Verif.Spec.Flow
import Verif.Spec.Stream
import Verif.Lemmas.Database
import Verif.Props.Stream
import Verif.Model.System

/-!
# Property C118: what a library connection makes the process send and keep
-/

namespace PDJ

open Spec

/-! ## sizes -/

theorem utf16_length_le (s : Str) : (utf16 s).length ≤ 2 * s.length := by
  induction s with
  | nil => simp [utf16]
  | cons c s ih =>
    rw [utf16_cons, List.length_append, List.length_cons]
    have : (utf16Char c).length ≤ 2 := by unfold utf16Char; split <;> simp
    omega

theorem utf16_le_utf8 (s : Str) : (utf16 s).length ≤ (utf8 s).length := by
  induction s with
  | nil => simp [utf16]
  | cons c s ih =>
    rw [utf16_cons, utf8_cons, List.length_append, List.length_append]
    have : (utf16Char c).length ≤ (utf8Char c).length := by
      unfold utf16Char utf8Char
      split <;> (simp only; repeat' split) <;> simp only [List.length_cons, List.length_nil] <;> omega
    omega

theorem ofU32_bytes (v : UInt32) : (DBField.ofU32 v).asBytes.length = 5 := rfl

theorem ofStr_bytes (s : Str) : (DBField.ofStr s).asBytes.length = 7 + 2 * (utf16 s).length := by
  simp [DBField.ofStr, DBField.asBytes]
  omega

/-- Transaction ids, as they are read: four bytes, of whatever kind. -/
def ShortId (t : DBField) : Prop := t.asBytes.length ≤ 11

theorem argsEncode_bytes (a : Args) (h : a.length ≤ 12) :
    (argsEncode a).length = 19 + (a.flatMap DBField.asBytes).length := by
  have e : (UInt8.ofNat a.length).toNat = a.length := by
    rw [UInt8.toNat_ofNat']
    omega
  simp only [argsEncode, e]
  split
  · simp only [List.length_append, List.length_cons, List.length_nil, List.length_map, List.length_replicate]
    omega
  · simp only [List.length_append, List.length_cons, List.length_nil, List.length_map]
    omega

theorem encode_bytes (t : DBField) (ht : ShortId t) (r : ReqType) (a : Args) (h : a.length ≤ 12) :
    (DBMessage.encode ⟨t, r, a⟩).length ≤ 38 + (a.flatMap DBField.asBytes).length := by
  unfold ShortId at ht
  have hr : r.value.length = 2 := by cases r <;> rfl
  simp only [DBMessage.encode, DBMessage.toResponse, List.length_append, argsEncode_bytes a h, DBMessage.magicBytes,
    List.length_cons, List.length_nil, hr]
  omega

theorem response_bytes (d : DBMessage) (ht : ShortId d.txid) : d.toResponse.length ≤ 16 := by
  unfold ShortId at ht
  simp only [DBMessage.toResponse, List.length_append, DBMessage.magicBytes, List.length_cons, List.length_nil]
  omega

theorem item_bytes (t : DBField) (ht : ShortId t) (a : ItemArgs) (h2 : a.value2 = []) :
    (msgItem t a).encode.length ≤ 102 + 2 * (utf16 a.value1).length := by
  have h := encode_bytes t ht .menuItem a.toArgs (by simp [ItemArgs.toArgs])
  have e : (a.toArgs.flatMap DBField.asBytes).length = 64 + 2 * (utf16 a.value1).length := by
    simp only [ItemArgs.toArgs, List.flatMap_cons, List.flatMap_nil, List.length_append, ofU32_bytes, ofStr_bytes, h2,
      List.length_nil]
    simp [utf16]
    omega
  unfold msgItem
  omega

theorem encodeMany_bytes (l : List DBMessage) :
    (DBMessage.encodeMany l).length = (l.map fun d => d.encode.length).sum := by
  have : ∀ (l : List DBMessage) (acc : Bytes), (l.foldl (fun acc d => acc ++ d.encode) acc).length =
      acc.length + (l.map fun d => d.encode.length).sum := by
    intro l
    induction l with
    | nil => simp
    | cons d l ih => intro acc; rw [List.foldl_cons, ih]; simp; omega
  have h := this l []
  rw [List.length_nil, Nat.zero_add] at h
  exact h

/-! ## the library -/

/-- What the names of the artists need, with `k` bytes besides for each. -/
def artistRoom (k : Nat) (db : Db) : Nat := (db.artists.rows.map fun e => k + 2 * (utf16 e.2.name).length).sum

/-- What the titles and paths of the tracks need. -/
def trackRoom (db : Db) : Nat :=
  (db.tracks.rows.map fun e => 102 + 2 * (utf16 e.2.title).length + 2 * e.2.path.length).sum

theorem sum_filter_le {α : Type} (f : α → Nat) (p : α → Bool) (l : List α) :
    ((l.filter p).map f).sum ≤ (l.map f).sum := by
  induction l with
  | nil => simp
  | cons a l ih =>
    rw [List.filter_cons]
    split <;> simp only [List.map_cons, List.sum_cons] <;> omega

theorem le_sum_of_mem {α : Type} (f : α → Nat) {l : List α} {a : α} (h : a ∈ l) : f a ≤ (l.map f).sum := by
  induction l with
  | nil => exact absurd h List.not_mem_nil
  | cons b l ih =>
    simp only [List.map_cons, List.sum_cons]
    rcases List.mem_cons.1 h with rfl | h
    · omega
    · have := ih h
      omega

theorem mapInsert_room {α : Type} (f : UInt32 × α → Nat) (k : UInt32) (v : α) (l : List (UInt32 × α)) :
    ((mapInsert k v l).map f).sum ≤ (l.map f).sum + f (k, v) := by
  unfold mapInsert
  rw [List.map_append, List.sum_append]
  have := sum_filter_le f (fun e => decide (e.1 ≠ k)) l
  simp only [List.map_cons, List.map_nil, List.sum_cons, List.sum_nil]
  omega

theorem index_room (k : Nat) {m : Mode} {io : IterOrder} {db db' : Db} {x : MetaTrack} (h : db.index m io x = .ok db') :
    artistRoom k db' ≤ artistRoom k db + (k + 2 * (utf16 x.artist).length) ∧
    trackRoom db' ≤ trackRoom db + (102 + 2 * (utf16 x.title).length + 2 * x.path.length) := by
  simp only [Db.index, bind, Outcome.bind, pure] at h
  cases ha : artistInsert m io db.artists x.artist with
  | panic => rw [ha] at h; exact nomatch h
  | ok r =>
    obtain ⟨aid, at'⟩ := r
    rw [ha] at h
    simp only at h
    cases hb : trackInsert m db.tracks aid x.title x.path x.size x.bpm with
    | panic => rw [hb] at h; exact nomatch h
    | ok r =>
      obtain ⟨tid, tt⟩ := r
      rw [hb] at h
      simp only at h
      cases h
      constructor
      · unfold artistInsert at ha
        split at ha
        · cases ha; exact Nat.le_add_right _ _
        · split at ha
          · cases ha
            exact mapInsert_room (fun e : UInt32 × Artist => k + 2 * (utf16 e.2.name).length) _ _ _
          · exact nomatch ha
      · unfold trackInsert at hb
        split at hb
        · cases hb
          exact mapInsert_room (fun e : UInt32 × Track => 102 + 2 * (utf16 e.2.title).length + 2 * e.2.path.length)
            _ _ _
        · exact nomatch hb

theorem build_room (k : Nat) {m : Mode} {l : List (IterOrder × MetaTrack)} {db db' : Db} (h : Db.indexAll m db l = .ok db') :
    artistRoom k db' ≤ artistRoom k db + (l.map fun x => k + 2 * (utf16 x.2.artist).length).sum ∧
    trackRoom db' ≤ trackRoom db + (l.map fun x => 102 + 2 * (utf16 x.2.title).length + 2 * x.2.path.length).sum := by
  induction l generalizing db with
  | nil => cases h; simp
  | cons x l ih =>
    obtain ⟨io, x⟩ := x
    simp only [Db.indexAll, bind, Outcome.bind] at h
    cases hi : db.index m io x with
    | panic => rw [hi] at h; exact nomatch h
    | ok d =>
      rw [hi] at h
      have h1 := index_room k hi
      have h2 := ih h
      simp only [List.map_cons, List.sum_cons]
      omega

theorem sum_le_sum {α : Type _} (f g : α → Nat) (l : List α) (h : ∀ x ∈ l, f x ≤ g x) :
    (l.map f).sum ≤ (l.map g).sum := by
  induction l with
  | nil => simp
  | cons a l ih =>
    have := ih fun x hx => h x (List.mem_cons_of_mem _ hx)
    have := h a List.mem_cons_self
    simp only [List.map_cons, List.sum_cons]
    omega

theorem sum_add (f g : IterOrder × MetaTrack → Nat) (l : List (IterOrder × MetaTrack)) :
    (l.map f).sum + (l.map g).sum = (l.map fun x => f x + g x).sum := by
  induction l with
  | nil => rfl
  | cons a l ih =>
    simp only [List.map_cons, List.sum_cons]
    omega

/-- The room needed is within the bound. -/
theorem library_room {m : Mode} {l : List (IterOrder × MetaTrack)} {db : Db} (h : Db.build m l = .ok db) :
    2000 + artistRoom 102 db ≤ libraryBytes (l.map (·.2)) ∧
    2000 + artistRoom 0 db + trackRoom db ≤ libraryBytes (l.map (·.2)) := by
  have h1 := build_room 102 h
  have h0 := build_room 0 h
  have e : artistRoom 102 .empty = 0 ∧ artistRoom 0 .empty = 0 ∧ trackRoom .empty = 0 := ⟨rfl, rfl, rfl⟩
  rw [e.1, e.2.2] at h1
  rw [e.2.1, e.2.2] at h0
  let B : IterOrder × MetaTrack → Nat := fun x =>
    102 + 4 * x.2.artist.length + 4 * x.2.title.length + 2 * x.2.path.length
  have e2 : libraryBytes (l.map (·.2)) = 2000 + (l.map B).sum := by
    rw [libraryBytes, List.map_map]
    rfl
  have a := sum_le_sum (fun x : IterOrder × MetaTrack => 102 + 2 * (utf16 x.2.artist).length) B l (fun (x : IterOrder × MetaTrack) _ => by
      have := utf16_length_le x.2.artist
      simp only [B]
      omega)
  have b := sum_le_sum (fun x : IterOrder × MetaTrack => (0 + 2 * (utf16 x.2.artist).length) +
      (102 + 2 * (utf16 x.2.title).length + 2 * x.2.path.length)) B l (fun (x : IterOrder × MetaTrack) _ => by
      have := utf16_length_le x.2.title
      have := utf16_length_le x.2.artist
      simp only [B]
      omega)
  rw [← sum_add] at b
  omega

theorem room_perm {α : Type} (io : IterOrder) (f : α → Nat) (l : List α) :
    ((io.f l).map f).sum = (l.map f).sum := ((io.perm l).map f).sum_nat

theorem mem_of_mapGet {α : Type} {k : UInt32} {l : List (UInt32 × α)} {v : α} (h : mapGet k l = some v) :
    ∃ e ∈ l, e.2 = v := by
  unfold mapGet at h
  rw [Option.map_eq_some_iff] at h
  obtain ⟨e, he, hv⟩ := h
  exact ⟨e, List.mem_of_find?_eq_some he, hv⟩

theorem item_bytes_of (t : DBField) (ht : ShortId t) (a : ItemArgs) (h2 : a.value2 = []) (n : Nat)
    (h : 2 * (utf16 a.value1).length ≤ n) : (msgItem t a).encode.length ≤ 102 + n := by
  have := item_bytes t ht a h2
  omega

theorem build_bytes (t : DBField) (ht : ShortId t) (v : Str) (ty id : UInt32) (n : Nat)
    (h : 2 * (utf16 v).length ≤ n) : (buildItem t v ty id).encode.length ≤ 102 + n :=
  item_bytes_of t ht _ rfl n h

theorem header_bytes (t : DBField) (ht : ShortId t) : (msgHeader t).encode.length ≤ 48 := by
  have := encode_bytes t ht .menuHeader [.ofArr4 0 0 0 1, .ofArr4 0 0 0 0] (by decide)
  exact this

theorem footer_bytes (t : DBField) (ht : ShortId t) : (msgFooter t).encode.length ≤ 38 := by
  have := encode_bytes t ht .menuFooter [] (by decide)
  exact this

theorem footer11_bytes (t : DBField) (ht : ShortId t) : (msgFooter11 t).encode.length ≤ 48 := by
  have := encode_bytes t ht .menuFooter [.ofU32 1, .ofU32 1] (by decide)
  exact this

theorem artist_text {db : Db} {id : UInt32} {a : Artist} (h : db.getArtist id = some a) :
    2 * (utf16 a.name).length ≤ artistRoom 0 db := by
  obtain ⟨e, he, rfl⟩ := mem_of_mapGet h
  have := le_sum_of_mem (fun e : UInt32 × Artist => 0 + 2 * (utf16 e.2.name).length) he
  unfold artistRoom
  omega

theorem track_text {db : Db} {id : UInt32} {t : Track} (h : db.getTrack id = some t) :
    102 + 2 * (utf16 t.title).length + 2 * t.path.length ≤ trackRoom db := by
  obtain ⟨e, he, rfl⟩ := mem_of_mapGet h
  exact le_sum_of_mem (fun e : UInt32 × Track => 102 + 2 * (utf16 e.2.title).length + 2 * e.2.path.length) he

theorem items_bytes {α : Type} (t : DBField) (ht : ShortId t) (l : List α) (name : α → Str) (ty id : α → UInt32) :
    ((l.map fun a => buildItem t (name a) (ty a) (id a)).map fun d => d.encode.length).sum ≤
      (l.map fun a => 102 + 2 * (utf16 (name a)).length).sum := by
  rw [List.map_map]
  refine sum_le_sum _ _ l fun a _ => ?_
  exact item_bytes t ht _ rfl

theorem render_bytes {io : IterOrder} {db : Db} {t : DBField} (ht : ShortId t) {ctx : Ctx} {ms : List DBMessage}
    (h : renderMessages io db t ctx = .ok ms) :
    (DBMessage.encodeMany ms).length ≤ 2000 + artistRoom 102 db ∨
    (DBMessage.encodeMany ms).length ≤ 2000 + artistRoom 0 db + trackRoom db := by
  have hh := header_bytes t ht
  have hf := footer_bytes t ht
  have hg := footer11_bytes t ht
  unfold renderMessages at h
  rw [encodeMany_bytes]
  split at h
  · cases h
    have := items_bytes t ht rootMenuItems (·.1) (·.2.1) (·.2.2)
    have e : (rootMenuItems.map fun a => 102 + 2 * (utf16 a.1).length).sum = 822 := by decide +kernel
    simp only [renderRootMenu, List.map_append, List.sum_append, List.map_cons, List.map_nil, List.sum_cons,
      List.sum_nil]
    omega
  · cases h
    have := items_bytes t ht (db.allArtists io) (·.name) (fun _ => MT.artist) (·.id)
    have e : ((db.allArtists io).map fun a => 102 + 2 * (utf16 a.name).length).sum = artistRoom 102 db := by
      unfold Db.allArtists artistRoom
      rw [List.map_map]
      exact room_perm io _ _
    left
    simp only [renderArtistPage, List.map_append, List.sum_append, List.map_cons, List.map_nil, List.sum_cons,
      List.sum_nil]
    omega
  · cases h
    have := build_bytes t ht ['L', 'o', 'o', 'p', 'm', 'a', 's', 't', 'e', 'r', 's'] MT.title 0x05 22 (by decide)
    simp only [renderTitlePage, List.map_cons, List.map_nil, List.sum_cons, List.sum_nil]
    omega
  · cases h
    have := build_bytes t ht ['U', 'n', 'k', 'n', 'o', 'w', 'n'] MT.album 0x00 14 (by decide)
    simp only [renderAlbumByArtist, List.map_cons, List.map_nil, List.sum_cons, List.sum_nil]
    omega
  · rename_i aid
    cases h
    have := items_bytes t ht (db.titleByArtist io aid) (·.title) (fun _ => MT.title) (·.id)
    have e : ((db.titleByArtist io aid).map fun a => 102 + 2 * (utf16 a.title).length).sum ≤ trackRoom db := by
      unfold Db.titleByArtist trackRoom
      refine Nat.le_trans (sum_filter_le _ _ _) ?_
      rw [List.map_map]
      refine Nat.le_trans (Nat.le_of_eq (room_perm io _ _)) ?_
      refine sum_le_sum _ _ _ fun x _ => ?_
      simp only [Function.comp]
      omega
    right
    simp only [renderTitleByArtistAlbum, List.map_append, List.sum_append, List.map_cons, List.map_nil, List.sum_cons,
      List.sum_nil]
    omega
  · rename_i tr
    simp only [renderMetadata, bind, Outcome.bind, pure] at h
    cases ht' : db.getTrack tr with
    | none => rw [ht'] at h; exact nomatch h
    | some track =>
      rw [ht'] at h
      simp only [Outcome.unwrap_some] at h
      cases ha : db.getArtist track.artistId with
      | none => rw [ha] at h; exact nomatch h
      | some artist =>
        rw [ha] at h
        cases h
        have h1 := track_text ht'
        have h2 := artist_text ha
        have hi := item_bytes_of t ht
        right
        simp only [List.map_cons, List.map_nil, List.sum_cons, List.sum_nil]
        have e1 := hi { entryId1 := 1, entryId2 := 5, entryId4 := 256, value1 := track.title, ty := MT.title } rfl _
          (Nat.le_refl _)
        have e2 := hi { entryId1 := 1, entryId2 := 1, value1 := artist.name, ty := MT.artist } rfl _ (Nat.le_refl _)
        have e3 := hi { entryId1 := 1, ty := MT.album } rfl 0 (Nat.le_refl _)
        have e4 := hi { entryId2 := 195, ty := MT.duration } rfl 0 (Nat.le_refl _)
        have e5 := hi { entryId2 := track.bpm.getD 0, ty := MT.bpm } rfl 0 (Nat.le_refl _)
        have e6 := hi { entryId2 := 5, value1 := [], ty := MT.comment } rfl 0 (Nat.le_refl _)
        have e7 := hi { entryId1 := 1, ty := MT.key } rfl 0 (Nat.le_refl _)
        have e8 := hi { ty := MT.rating } rfl 0 (Nat.le_refl _)
        have e9 := hi { ty := MT.colorNone } rfl 0 (Nat.le_refl _)
        have e10 := hi { ty := MT.genre } rfl 0 (Nat.le_refl _)
        simp only at e1 e2
        omega
  · rename_i tr
    simp only [renderMountInfo, bind, Outcome.bind, pure] at h
    cases ht' : db.getTrack tr with
    | none => rw [ht'] at h; exact nomatch h
    | some track =>
      rw [ht'] at h
      simp only [Outcome.unwrap_some] at h
      cases hp : fromUtf8 track.path with
      | none => rw [hp] at h; exact nomatch h
      | some path =>
        rw [hp] at h
        cases h
        have h1 := track_text ht'
        have h2 := utf16_le_utf8 path
        rw [utf8_fromUtf8 hp] at h2
        have hi := item_bytes_of t ht
        right
        simp only [List.map_cons, List.map_nil, List.sum_cons, List.sum_nil]
        have e1 := hi { ty := MT.title, entryId2 := 1 } rfl 0 (Nat.le_refl _)
        have e2 := hi { ty := MT.duration, entryId2 := 195 } rfl 0 (Nat.le_refl _)
        have e3 := hi { ty := MT.bpm, entryId2 := track.bpm.getD 0 } rfl 0 (Nat.le_refl _)
        have e4 := hi { ty := MT.comment, value1 := commentText } rfl 58 (by decide)
        have e5 := hi { ty := MT.mountPath, entryId1 := track.size, entryId2 := 5, value1 := path } rfl _
          (Nat.le_refl _)
        have e6 := hi { ty := MT.unknown1, entryId2 := 1 } rfl 0 (Nat.le_refl _)
        simp only at e5
        omega
  · cases h
    simp

/-- A transaction id that has been read has four bytes. -/
theorem parse_id {m : Mode} {i r : Bytes} {d : DBMessage} (h : DBMessage.parse m i = .ok r d) : ShortId d.txid := by
  simp only [DBMessage.parse, bind_def, PRes.andThen_eq_ok] at h
  obtain ⟨r1, v1, h1, r2, t, h2, r3, rt, h3, r4, a, h4, h5⟩ := h
  have ht : d.txid = t := by cases h5; rfl
  rw [ht]
  rcases transactionId_cases (i := r1) with ⟨k, tx, s, hl, rfl⟩ | he
  · rw [transactionId_eval k tx s hl] at h2
    cases hk : FieldKind.name k with
    | none => rw [hk] at h2; exact nomatch h2
    | some f =>
      rw [hk] at h2
      cases h2
      unfold ShortId DBField.asBytes
      cases f <;> simp [hl]
  · rw [he] at h2; exact nomatch h2

/-- C118: whatever a player sends, in whatever order: no reply of the library has more bytes than the whole library
needs, however much the player asks for. -/
theorem C118_reply_bounded (m : Mode) (l : List (IterOrder × MetaTrack)) {db : Db} (hb : Db.build m l = .ok db)
    (io : IterOrder) (chunk : Bytes) (ctx ctx' : Ctx) (reply : Bytes)
    (h : process m io db chunk ctx = .ok (reply, ctx')) : reply.length ≤ libraryBytes (l.map (·.2)) := by
  have hroom := library_room hb
  have h2000 : 2000 ≤ libraryBytes (l.map (·.2)) := Nat.le_add_right _ _
  unfold process at h
  split at h
  · cases h; omega
  · split at h
    · rename_i r d hp
      have ht := parse_id hp
      have hr := response_bytes d ht
      have hty : ∀ r : ReqType, (typeField r).asBytes.length = 5 := by intro r; cases r <;> rfl
      split at h
      · rename_i c hc
        unfold respond at h
        have small : ∀ (rt : ReqType) (f g : DBField), f.asBytes.length = 5 → g.asBytes.length = 5 →
            (DBMessage.encode ⟨d.txid, rt, [f, g]⟩).length ≤ 48 := by
          intro rt f g hf hg
          have := encode_bytes d.txid ht rt [f, g] (by simp)
          simp only [List.flatMap_cons, List.flatMap_nil, List.length_append, hf, hg, List.length_nil] at this
          omega
        have small' : ∀ (f g : DBField), f.asBytes.length = 5 → g.asBytes.length = 5 →
            (d.toResponse ++ okRequest ++ argsEncode [f, g]).length ≤ 48 := by
          intro f g hf hg
          have := argsEncode_bytes [f, g] (by simp)
          simp only [List.flatMap_cons, List.flatMap_nil, List.length_append, hf, hg, List.length_nil] at this
          have e : okRequest.length = 3 := rfl
          simp only [List.length_append, e]
          omega
        split at h
        · cases h
          have := small' (.ofArr4 0 0 0 0) (.ofArr4 0 0 0 0x11) rfl rfl
          omega
        · cases h
          have := small' (.ofArr4 0 0 0x10 0) (.ofArr4 0 0 0 8) rfl rfl
          omega
        · simp only [bind, Outcome.bind] at h
          split at h
          · split at h
            · cases h
              refine Nat.le_trans (small' _ _ (hty _) (ofU32_bytes _)) (by omega)
            · exact nomatch h
          · exact nomatch h
        · cases h
          refine Nat.le_trans (small' _ _ (hty _) (ofU32_bytes _)) (by omega)
        · cases h
          have := argsEncode_bytes [.ofArr4 0 0 0x20 0x04, .ofU32 0, .ofArr4 0 0 0x03 0x88,
            ⟨.binary, previewWaveform⟩] (by simp)
          have e1 : (DBField.ofArr2 0x44 0x02).asBytes.length = 3 := rfl
          have e2 : (⟨.binary, previewWaveform⟩ : DBField).asBytes.length = 909 := by decide +kernel
          have e3 : (DBField.ofArr4 0 0 0x20 0x04).asBytes.length = 5 := rfl
          have e4 : (DBField.ofArr4 0 0 0x03 0x88).asBytes.length = 5 := rfl
          simp only [List.flatMap_cons, List.flatMap_nil, List.length_append, e2, e3, e4, ofU32_bytes,
            List.length_nil] at this
          simp only [List.length_append, e1]
          omega
        · cases h
          omega
        · simp only [bind, Outcome.bind] at h
          split at h
          · split at h
            · cases h
              refine Nat.le_trans (small _ _ _ (hty _) (ofU32_bytes _)) (by omega)
            · exact nomatch h
          · exact nomatch h
        · simp only [bind, Outcome.bind] at h
          split at h
          · split at h
            · cases h
              refine Nat.le_trans (small _ _ _ (hty _) (ofU32_bytes _)) (by omega)
            · exact nomatch h
          · exact nomatch h
        · simp only [bind, Outcome.bind] at h
          split at h
          · split at h
            · cases h
              refine Nat.le_trans (small _ _ _ (hty _) (ofU32_bytes _)) (by omega)
            · exact nomatch h
          · exact nomatch h
        · cases h
          have := encode_bytes d.txid ht .loadTrackSuccess
            [typeField d.rtype, .ofU32 1, .ofU32 0, ⟨.binary, []⟩, .ofU32 0] (by simp)
          have e1 : (⟨.binary, []⟩ : DBField).asBytes.length = 0 := rfl
          simp only [List.flatMap_cons, List.flatMap_nil, List.length_append, hty, e1, ofU32_bytes,
            List.length_nil] at this
          omega
        · simp only [bind, Outcome.bind] at h
          split at h
          · rename_i ms hm
            cases h
            rcases render_bytes ht hm with hm | hm <;> omega
          · exact nomatch h
      · cases h
        have := encode_bytes d.txid ht .success [] (by simp)
        simp only [List.flatMap_nil, List.length_nil] at this
        omega
    · cases h
      have : panicText.length = 5 := rfl
      omega
    · cases h
      have : panicText.length = 5 := rfl
      omega
    · exact nomatch h

theorem connStep_bounded {m : Mode} {l : List (IterOrder × MetaTrack)} {db : Db} (hb : Db.build m l = .ok db)
    {io : IterOrder} {chunk reply : Bytes} {c c' : Conn} (h : connStep m db io chunk c = (some reply, c')) :
    reply.length ≤ libraryBytes (l.map (·.2)) := by
  cases c with
  | dead => exact nomatch h
  | «open» ctx =>
    unfold connStep at h
    split at h
    · rename_i heq; exact nomatch heq
    · rename_i ctx0 heq
      cases heq
      split at h
      · rename_i r c2 hp
        cases h
        exact C118_reply_bounded m l hb io chunk ctx c2 reply hp
      · exact nomatch h

/-- C118: what waits to be written to a connection, whatever the OS does with what is written before: never more than
8192 bytes and one reply. -/
theorem C118_buffer_bounded (m : Mode) (l : List (IterOrder × MetaTrack)) {db : Db} (hb : Db.build m l = .ok db)
    (xs : List StreamEvent) :
    (streamRun m db .start xs).2.buffer.length ≤ 8192 + libraryBytes (l.map (·.2)) := by
  have key : ∀ (s : StreamEnd), s.buffer.length ≤ 8192 + libraryBytes (l.map (·.2)) →
      (streamRun m db s xs).2.buffer.length ≤ 8192 + libraryBytes (l.map (·.2)) := by
    induction xs with
    | nil => exact fun s h => h
    | cons x xs ih =>
      intro s h
      simp only [streamRun]
      apply ih
      unfold streamStep
      split
      · rename_i reply c hc
        have hr := connStep_bounded hb hc
        unfold sendReply
        split
        · simp only [List.length_drop]
          omega
        · simp only [List.length_drop, List.length_append]
          omega
      · exact Nat.zero_le _
  exact key .start (Nat.zero_le _)

/-! ## a player that reads when it likes -/

/-- The history of a connection that is read at once, up to the reply being written. -/
def FlowInv (m : Mode) (db : Db) (o : Bytes) (s : FlowEnd) (pieces : List (IterOrder × Bytes)) : Prop :=
  match s.sending with
  | .idle => ∃ ys : List StreamEvent, pieces = ys.map (fun y => (y.order, y.chunk)) ∧
      streamRun m db .start ys = (o, ⟨s.conn, s.buffer⟩)
  | .before r => ∃ (ys : List StreamEvent) (io : IterOrder) (chunk : Bytes) (t : Nat) (o₀ : Bytes) (s₀ : StreamEnd),
      pieces = ys.map (fun y => (y.order, y.chunk)) ++ [(io, chunk)] ∧ streamRun m db .start ys = (o₀, s₀) ∧
      connStep m db io chunk s₀.conn = (some r, s.conn) ∧ 8192 < s₀.buffer.length ∧ t < s₀.buffer.length ∧
      o = o₀ ++ s₀.buffer.take t ∧ s.buffer = s₀.buffer.drop t
  | .flushing => ∃ (ys : List StreamEvent) (io : IterOrder) (chunk : Bytes) (t : Nat) (o₀ : Bytes) (s₀ : StreamEnd)
      (r : Bytes),
      pieces = ys.map (fun y => (y.order, y.chunk)) ++ [(io, chunk)] ∧ streamRun m db .start ys = (o₀, s₀) ∧
      connStep m db io chunk s₀.conn = (some r, s.conn) ∧ ¬ (8192 < s₀.buffer.length ∧ t < s₀.buffer.length) ∧
      o = o₀ ++ (s₀.buffer ++ r).take t ∧ s.buffer = (s₀.buffer ++ r).drop t

theorem flowInv_stream {m : Mode} {db : Db} {o : Bytes} {s : FlowEnd} {pieces : List (IterOrder × Bytes)}
    (h : FlowInv m db o s pieces) : ∃ ys : List StreamEvent, pieces = ys.map (fun y => (y.order, y.chunk)) ∧
      streamRun m db .start ys = (o, ⟨s.conn, s.buffer⟩) := by
  obtain ⟨c, b, sd⟩ := s
  cases sd with
  | idle => exact h
  | before r =>
    obtain ⟨ys, io, chunk, t, o₀, s₀, h1, h2, h3, h4, h5, h6, h7⟩ := h
    refine ⟨ys ++ [⟨io, chunk, t⟩], by rw [h1, List.map_append]; rfl, ?_⟩
    simp only at h7 h3
    rw [streamRun_append, h2]
    simp only [streamRun, streamStep, h3, sendReply, if_pos (And.intro h4 h5), List.append_nil, h6, h7]
  | flushing =>
    obtain ⟨ys, io, chunk, t, o₀, s₀, r, h1, h2, h3, h4, h6, h7⟩ := h
    refine ⟨ys ++ [⟨io, chunk, t⟩], by rw [h1, List.map_append]; rfl, ?_⟩
    simp only at h7 h3
    rw [streamRun_append, h2]
    simp only [streamRun, streamStep, h3, sendReply, if_neg h4, List.append_nil, h6, h7]

theorem flowInv_flushed {m : Mode} {db : Db} {o : Bytes} {c : Conn} {b : Bytes} {pieces : List (IterOrder × Bytes)}
    (h : FlowInv m db o ⟨c, b, .flushing⟩ pieces) : FlowInv m db o (flushed c b) pieces := by
  unfold flushed
  split
  · rename_i hb
    subst hb
    obtain ⟨ys, h1, h2⟩ := flowInv_stream h
    exact ⟨ys, h1, h2⟩
  · exact h

theorem flowInv_step {m : Mode} {db : Db} {o o' : Bytes} {s s' : FlowEnd} {pieces : List (IterOrder × Bytes)}
    {x : FlowEvent} (h : FlowInv m db o s pieces) (hs : flowStep m db s x = some (o', s')) :
    FlowInv m db (o ++ o') s' (pieces ++ piecesOf [x]) := by
  obtain ⟨c, b, sd⟩ := s
  cases x with
  | error =>
    cases hs
    rw [List.append_nil, show piecesOf [.error] = [] from rfl, List.append_nil]
    obtain ⟨ys, h1, h2⟩ := flowInv_stream h
    exact ⟨ys, h1, h2⟩
  | chunk io chunk =>
    simp only [flowStep] at hs
    split at hs
    · rename_i hi
      subst hi
      obtain ⟨ys, h1, h2⟩ := h
      simp only at h2
      rw [show piecesOf [.chunk io chunk] = [(io, chunk)] from rfl]
      split at hs
      · rename_i reply c' hc
        split at hs
        · rename_i hl
          cases hs
          exact ⟨ys, io, chunk, 0, o, ⟨c, b⟩, by rw [h1], h2, hc, hl, by simp only; omega, by simp, by simp⟩
        · rename_i hl
          cases hs
          apply flowInv_flushed
          exact ⟨ys, io, chunk, 0, o, ⟨c, b⟩, reply, by rw [h1], h2, hc, fun hh => hl hh.1, by simp, by simp⟩
      · rename_i c' hc
        cases hs
        refine ⟨ys ++ [⟨io, chunk, 0⟩], by rw [h1, List.map_append]; rfl, ?_⟩
        rw [streamRun_append, h2]
        simp only [streamRun, streamStep, hc, List.append_nil]
    · exact nomatch hs
  | takes n =>
    rw [show piecesOf [.takes n] = [] from rfl, List.append_nil]
    cases sd with
    | idle => cases hs; rw [List.append_nil]; exact h
    | before r =>
      obtain ⟨ys, io, chunk, t, o₀, s₀, h1, h2, h3, h4, h5, h6, h7⟩ := h
      simp only at h7 h3
      simp only [flowStep] at hs
      split at hs
      · rename_i hd
        cases hs
        apply flowInv_flushed
        refine ⟨ys, io, chunk, s₀.buffer.length, o₀, s₀, r, h1, h2, h3, by omega, ?_, ?_⟩
        · rw [h6, h7, List.append_assoc, List.take_append_drop, List.take_left]
        · rw [List.drop_left]
      · rename_i hd
        cases hs
        refine ⟨ys, io, chunk, t + n, o₀, s₀, h1, h2, h3, h4, ?_, ?_, ?_⟩
        · rw [h7, List.drop_drop, List.drop_eq_nil_iff] at hd
          omega
        · rw [h6, h7, List.append_assoc, List.take_add]
        · rw [h7, List.drop_drop]
    | flushing =>
      obtain ⟨ys, io, chunk, t, o₀, s₀, r, h1, h2, h3, h4, h6, h7⟩ := h
      simp only at h7 h3
      cases hs
      apply flowInv_flushed
      refine ⟨ys, io, chunk, t + n, o₀, s₀, r, h1, h2, h3, by omega, ?_, ?_⟩
      · rw [h6, h7, List.append_assoc, List.take_add]
      · rw [h7, List.drop_drop]

theorem piecesOf_cons (x : FlowEvent) (xs : List FlowEvent) : piecesOf (x :: xs) = piecesOf [x] ++ piecesOf xs := by
  cases x <;> rfl

theorem flowInv_run {m : Mode} {db : Db} {xs : List FlowEvent} {o o' : Bytes} {s s' : FlowEnd}
    {pieces : List (IterOrder × Bytes)} (h : FlowInv m db o s pieces) (hs : flowRun m db s xs = some (o', s')) :
    FlowInv m db (o ++ o') s' (pieces ++ piecesOf xs) := by
  induction xs generalizing o o' s pieces with
  | nil => cases hs; rw [List.append_nil, show piecesOf [] = [] from rfl, List.append_nil]; exact h
  | cons x xs ih =>
    simp only [flowRun] at hs
    split at hs
    · exact nomatch hs
    · rename_i o₁ s₁ h₁
      rw [Option.map_eq_some_iff] at hs
      obtain ⟨⟨o₂, s₂⟩, h₂, h₃⟩ := hs
      cases h₃
      have := ih (flowInv_step h h₁) h₂
      rw [piecesOf_cons, ← List.append_assoc, ← List.append_assoc]
      exact this

/-- C118: that the player reads when it likes changes nothing but the time: what has gone out, what waits in the
buffer and the session are at any moment those of a connection (C109) to the same pieces. -/
theorem C118_slow_is_stream (m : Mode) (db : Db) (xs : List FlowEvent) (o : Bytes) (s : FlowEnd)
    (h : flowRun m db .start xs = some (o, s)) :
    ∃ ys : List StreamEvent, ys.map (fun y => (y.order, y.chunk)) = piecesOf xs ∧
      streamRun m db .start ys = (o, ⟨s.conn, s.buffer⟩) := by
  have h0 : FlowInv m db [] .start [] := ⟨[], rfl, rfl⟩
  obtain ⟨ys, h1, h2⟩ := flowInv_stream (flowInv_run h0 h)
  exact ⟨ys, by rw [← h1, List.nil_append], by rw [h2, List.nil_append]⟩

/-- C118: whatever a player sends and however little it reads, what the process keeps for it, the written part of
the current reply apart, is never more than 8192 bytes and two replies. -/
theorem C118_kept_bounded (m : Mode) (l : List (IterOrder × MetaTrack)) {db : Db} (hb : Db.build m l = .ok db)
    (xs : List FlowEvent) (o : Bytes) (s : FlowEnd) (h : flowRun m db .start xs = some (o, s)) :
    (owed s).length ≤ 8192 + 2 * libraryBytes (l.map (·.2)) := by
  have h0 : FlowInv m db [] .start [] := ⟨[], rfl, rfl⟩
  have hi := flowInv_run h0 h
  obtain ⟨ys, h1, h2⟩ := flowInv_stream hi
  have hk := C118_buffer_bounded m l hb ys
  rw [h2] at hk
  simp only at hk
  obtain ⟨c, b, sd⟩ := s
  cases sd with
  | idle => simp only [owed] at *; omega
  | flushing => simp only [owed] at *; omega
  | before r =>
    obtain ⟨ys, io, chunk, t, o₀, s₀, -, -, h3, -⟩ := hi
    have := connStep_bounded hb h3
    simp only [owed, List.length_append] at *
    omega

/-- C118: as long as the OS reports no error, a player that reads late or little loses nothing: what it has got and
what is yet to be sent are together the replies to its pieces, one after another; and nothing is yet to be sent when
the next piece is read. -/
theorem C118_nothing_lost (m : Mode) (db : Db) (xs : List FlowEvent) (o : Bytes) (s : FlowEnd)
    (h : flowRun m db .start xs = some (o, s)) (hne : FlowEvent.error ∉ xs) :
    o ++ owed s = ((connRun m db (.open none) (piecesOf xs)).1.filterMap id).flatten ∧
      (s.sending = .idle → owed s = []) := by
  have hfl : ∀ c b, (flushed c b).conn = c ∧ owed (flushed c b) = b ∧
      ((flushed c b).sending = .idle → owed (flushed c b) = []) ∧ ∀ r, (flushed c b).sending ≠ .before r := by
    intro c b
    unfold flushed owed
    split
    · rename_i hb
      exact ⟨rfl, hb.symm, fun _ => rfl, fun r h => nomatch h⟩
    · exact ⟨rfl, rfl, (fun h => nomatch h), (fun r h => nomatch h)⟩
  have key : ∀ (xs : List FlowEvent) (s s' : FlowEnd) (o : Bytes), FlowEvent.error ∉ xs →
      (s.sending = .idle → owed s = []) → (∀ r, s.sending ≠ .before r) → flowRun m db s xs = some (o, s') →
      o ++ owed s' = owed s ++ ((connRun m db s.conn (piecesOf xs)).1.filterMap id).flatten ∧
        (s'.sending = .idle → owed s' = []) := by
    intro xs
    induction xs with
    | nil =>
      intro s s' o _ hi hb h
      cases h
      exact ⟨by simp [piecesOf, connRun], hi⟩
    | cons x xs ih =>
      intro s s' o hne hi hb h
      have hne' : FlowEvent.error ∉ xs := fun hm => hne (List.mem_cons_of_mem _ hm)
      simp only [flowRun] at h
      split at h
      · exact nomatch h
      · rename_i o₁ s₁ h₁
        rw [Option.map_eq_some_iff] at h
        obtain ⟨⟨o₂, s₂⟩, h₂, h₃⟩ := h
        cases h₃
        obtain ⟨c, b, sd⟩ := s
        cases x with
        | error => exact absurd List.mem_cons_self hne
        | chunk io chunk =>
          simp only [flowStep] at h₁
          split at h₁
          · rename_i hidle
            subst hidle
            have hb0 : b = [] := hi rfl
            subst hb0
            simp only [piecesOf, connRun]
            split at h₁
            · rename_i reply c' hc
              rw [if_neg (by simp)] at h₁
              cases h₁
              have hf := hfl c' ([] ++ reply)
              have := ih _ _ _ hne' hf.2.2.1 hf.2.2.2 h₂
              rw [hf.1, hf.2.1, List.nil_append] at this
              rw [hc, filterMap_some, List.flatten_cons]
              exact ⟨by simpa [owed] using this.1, this.2⟩
            · rename_i c' hc
              cases h₁
              have := ih ⟨c', [], .idle⟩ _ _ hne' (fun _ => rfl) (fun r h => nomatch h) h₂
              rw [hc]
              exact this
          · exact nomatch h₁
        | takes n =>
          simp only [piecesOf]
          cases sd with
          | before r => exact absurd rfl (hb r)
          | idle =>
            cases h₁
            exact ih _ _ _ hne' hi hb h₂
          | flushing =>
            cases h₁
            have hf := hfl c (b.drop n)
            have := ih _ _ _ hne' hf.2.2.1 hf.2.2.2 h₂
            rw [hf.1, hf.2.1] at this
            refine ⟨?_, this.2⟩
            rw [List.append_assoc, this.1, ← List.append_assoc, List.take_append_drop]
            rfl
  have := key xs .start s o hne (fun _ => rfl) (fun r h => nomatch h) h
  exact this

/-- C118: while a reply is being written, no request of this player is read (its next one waits in the socket); and
once the player reads, all that is yet to be sent goes out and the task is ready for the next request. -/
theorem C118_goes_on (m : Mode) (db : Db) (s : FlowEnd) (hs : s.sending ≠ .idle) :
    (∀ io chunk, flowStep m db s (.chunk io chunk) = none) ∧
    ∀ a b, s.buffer.length ≤ a → (owed s).length ≤ b →
      flowRun m db s [.takes a, .takes b] = some (owed s, ⟨s.conn, [], .idle⟩) := by
  obtain ⟨c, buf, sd⟩ := s
  constructor
  · intro io chunk
    simp only [flowStep]
    rw [if_neg hs]
  · intro a b ha hb
    cases sd with
    | idle => exact absurd rfl hs
    | flushing =>
      simp only [flowRun, flowStep, flushed, List.drop_of_length_le ha, List.take_of_length_le ha, if_true, owed,
        Option.map_some, List.append_nil]
    | before r =>
      have hr : r.length ≤ b := by
        simp only [owed, List.length_append] at hb
        omega
      simp only [flowRun, flowStep, List.drop_of_length_le ha, if_true, owed]
      by_cases h0 : r = []
      · subst h0
        simp [flushed]
      · simp [flushed, if_neg h0, List.drop_of_length_le hr, List.take_of_length_le hr]

/-- C118 in the whole process: in every history, no reply that goes over a connection to a library handler has more
bytes than the whole library needs, and those at the well-known port have two. -/
theorem C118_in_the_process {F : Type} (e : Endian) (m : Mode) (l : List (IterOrder × MetaTrack)) {db : Db}
    (hb : Db.build m l = .ok db) (xs : List (SysAction F)) (o : LibOut)
    (ho : SysOut.lib o ∈ (sysRun e m db .start xs).1) :
    (∀ h b, o = .toHandler h b → b.length ≤ libraryBytes (l.map (·.2))) ∧ ∀ c b, o = .toMain c b → b.length = 2 := by
  have hlib : ∀ (t : LibServer) (ev : LibEvent), ∀ o ∈ (libStep m db t ev).1,
      (∀ h b, o = .toHandler h b → b.length ≤ libraryBytes (l.map (·.2))) ∧
        ∀ c b, o = .toMain c b → b.length = 2 := by
    intro t ev o ho
    cases ev with
    | main c bound =>
      simp only [libStep] at ho
      split at ho
      · exact absurd ho List.not_mem_nil
      · split at ho
        · rw [List.mem_singleton] at ho
          subst ho
          refine ⟨fun h b e => (nomatch e), fun c b e => ?_⟩
          cases e
          rfl
        · exact absurd ho List.not_mem_nil
    | handler h ev =>
      simp only [libStep] at ho
      split at ho
      · exact absurd ho List.not_mem_nil
      · rename_i hd hh
        rw [List.mem_map] at ho
        obtain ⟨b, hb', rfl⟩ := ho
        refine ⟨fun h' b' e => ?_, fun c b e => (nomatch e)⟩
        cases e
        unfold handlerStep at hb'
        split at hb'
        · exact absurd hb' List.not_mem_nil
        · exact absurd hb' List.not_mem_nil
        · split at hb'
          · rename_i hp
            rw [List.mem_singleton] at hb'
            subst hb'
            exact C118_reply_bounded m l hb _ _ _ _ _ hp
          · exact absurd hb' List.not_mem_nil
        · exact absurd hb' List.not_mem_nil
        · exact absurd hb' List.not_mem_nil
  have key : ∀ (xs : List (SysAction F)) (s : System F), SysOut.lib o ∈ (sysRun e m db s xs).1 →
      ∃ t ev, o ∈ (libStep m db t ev).1 := by
    intro xs
    induction xs with
    | nil => exact fun s h => absurd h List.not_mem_nil
    | cons x xs ih =>
      intro s h
      simp only [sysRun, List.mem_append] at h
      rcases h with h | h
      · unfold sysStep at h
        split at h
        · split at h
          all_goals first
            | exact absurd h List.not_mem_nil
            | (simp only [List.mem_map] at h
               obtain ⟨a, -, ha⟩ := h
               cases ha
               done)
            | (simp only [List.mem_map] at h
               obtain ⟨a, h1, ha⟩ := h
               cases ha
               exact ⟨_, _, h1⟩)
            | (split at h
               · simp only [List.mem_map] at h
                 obtain ⟨a, h1, ha⟩ := h
                 cases ha
                 exact ⟨_, _, h1⟩
               · exact absurd h List.not_mem_nil)
        · exact absurd h List.not_mem_nil
      · exact ih _ h
  obtain ⟨t, ev, h⟩ := key xs .start ho
  exact hlib t ev o h

/-! ## Instances -/

/-- The answer to a greeting. -/
example (m : Mode) := C118_reply_bounded m sampleScan (build_catalog m sampleScan sampleScan_fits) .id
  [0x11, 0, 0, 0, 1] none none [0x11, 0, 0, 0, 1] rfl

example (m : Mode) := C118_buffer_bounded m sampleScan (build_catalog m sampleScan sampleScan_fits)
  [⟨.id, [0x11, 0, 0, 0, 1], 1⟩, ⟨.id, [0x11, 0, 0, 0, 1], 3⟩]

/-- A greeting that is read byte by byte, and another one. -/
example := C118_slow_is_stream .debug Db.empty
  [.chunk .id [0x11, 0, 0, 0, 1], .takes 1, .takes 4, .chunk .id [0x11, 0, 0, 0, 2], .takes 2] _ _ rfl

example (m : Mode) := C118_kept_bounded m sampleScan (build_catalog m sampleScan sampleScan_fits)
  [.chunk .id [0x11, 0, 0, 0, 1], .takes 1, .error, .chunk .id [0x11, 0, 0, 0, 2]] _ _ rfl

example := C118_nothing_lost .debug Db.empty
  [.chunk .id [0x11, 0, 0, 0, 1], .takes 1, .takes 4, .chunk .id [0x11, 0, 0, 0, 2], .takes 2] _ _ rfl (by simp)

example := C118_goes_on .debug Db.empty ⟨.open none, [1, 2, 3], .before [4]⟩ (by decide)

/-- The answer to a chunk at the well-known port. -/
example {F : Type} (e : Endian) (m : Mode) := C118_in_the_process (F := F) e m sampleScan
  (build_catalog m sampleScan sampleScan_fits) [.accept 1, .main 1 (some 40000)] (.toMain 1 [0x9c, 0x40])
  (by simp [sysRun, sysStep, System.start, AppSystem.start, libStep, LibServer.start, Services.start]; decide)

end PDJ
