import Verif.Spec.Browse
import Verif.Lemmas.Session
import Verif.Lemmas.Database

/-! # Reading lines out of rendered menus -/

namespace PDJ

open Spec

/-- The lines of a kind among menu items. -/
def itemLines (kind : UInt32) (items : List Item) : List (UInt32 × UInt32 × Str) :=
  (items.filter (fun i => i.kind = kind)).map (fun i => (i.id1, i.id2, i.text))

theorem lines_page (kind tx : UInt32) (footer : List Val) (items : List Item) :
    lines kind (pageMsgs tx footer items) = itemLines kind items := by
  unfold lines pageMsgs
  rw [List.filterMap_append, List.filterMap_cons]
  have h1 : lineOf ⟨tx, 0x4001, [.u32 1, .u32 0]⟩ = none := by
    simp only [lineOf]
    rw [if_neg (by decide)]
  have h2 : lineOf ⟨tx, 0x4201, footer⟩ = none := by
    simp only [lineOf]
    rw [if_neg (by decide)]
  simp only [h1, h2, List.filterMap_cons, List.filterMap_nil, List.append_nil]
  induction items with
  | nil => rfl
  | cons i items ih =>
    rw [List.map_cons, List.filterMap_cons]
    have h3 : lineOf (Item.msg tx i) = some (i.kind, i.id1, i.id2, i.text) := by
      simp only [lineOf, Item.msg]
      rfl
    simp only [h3, itemLines, List.filter_cons]
    by_cases hk : i.kind = kind
    · simp only [hk, if_true, decide_true, List.map_cons]
      rw [ih]
      rfl
    · simp only [hk, if_false, decide_false]
      rw [ih]
      rfl

/-- The titles of the tracks with an artist's id are the titles scanned with the artist's name. -/
theorem catalog_titles {ts : List MetaTrack} (h : ts.length ≤ capacity) {a : Artist}
    (ha : a ∈ catalogArtists ts) :
    ((catalogTracks ts).filter (fun t => t.artistId = a.id)).map (fun t => t.title) =
      (ts.filter (fun t => t.artist = a.name)).map (·.title) := by
  have hname : a.name ∈ artistNames ts := by
    rw [← catalogArtists_names]
    exact List.mem_map.2 ⟨a, ha, rfl⟩
  have ha' : a = ⟨artistIdOf ts a.name, a.name⟩ :=
    List.inj_on_of_nodup_map (f := Artist.name)
      (by rw [catalogArtists_names]; exact nodup_distinct _) ha (artistOf_catalog hname) rfl
  have hid : a.id = artistIdOf ts a.name := congrArg Artist.id ha'
  have key : ∀ t ∈ ts, (artistIdOf ts t.artist = a.id ↔ t.artist = a.name) := by
    intro t ht
    rw [hid]
    constructor
    · intro e
      refine artistIdOf_inj h ?_ hname e
      rw [artistNames, mem_distinct]
      exact List.mem_map.2 ⟨t, ht, rfl⟩
    · intro e
      rw [e]
  have gen : ∀ (l : List MetaTrack) (f : Nat → UInt32), (∀ t ∈ l, t ∈ ts) →
      ((l.mapIdx (fun k t => (⟨f k, artistIdOf ts t.artist, t.title, t.path, t.size,
        t.bpm⟩ : Track))).filter (fun t => t.artistId = a.id)).map (fun t => t.title) =
      (l.filter (fun t => t.artist = a.name)).map (·.title) := by
    intro l
    induction l with
    | nil => intro f _; rfl
    | cons t l ih =>
      intro f hl
      have ih' := ih (fun k => f (k + 1)) (fun x hx => hl x (by simp [hx]))
      have hk := key t (hl t (by simp))
      rw [List.mapIdx_cons, List.filter_cons, List.filter_cons]
      by_cases e : t.artist = a.name
      · have e' := hk.2 e
        rw [if_pos (by simpa using e'), if_pos (by simpa using e), List.map_cons, List.map_cons, ih']
      · have e' : ¬ artistIdOf ts t.artist = a.id := fun x => e (hk.1 x)
        rw [if_neg (by simpa using e'), if_neg (by simpa using e)]
        exact ih'
  exact gen ts (fun k => UInt32.ofNat (k + 2)) (fun t ht => ht)

end PDJ
