import Verif.Lemmas.Dos33Preserve
/-! # DOS 3.3: deleting and shredding on a consistent volume -/
namespace Atr

/-! ### delete -/

/-- effect of a successful delete -/
structure Deleted33 (b b' : Bytes) (cs : List Nat) (ds : List DDirent) (k : Nat) (d : DDirent) (ts map : List Nat) : Prop where
  body : DImg.deleteBody d.filename (mount33 b ds) = (.ok (), { mount33 b ds with bytes := b' })
  size : b'.length = 143360
  chain : Chain33 b' (linkOf (sec33 b 272)) cs
  dir : scanCatSec 560 0 (catRaw b' cs) = (ds.set k d.markDeleted).mapIdx fun i d => d.reread i
  term : ∀ e ∈ (catRaw b' cs).drop ds.length, UnusedSlot e
  kept : VtocKept b b'
  free : ∀ s, IsFree33 b' s ↔ IsFree33 b s ∨ s ∈ ts ++ map
  others : ∀ s, s ≠ 272 → s ∉ cs → sec33 b' s = sec33 b s

theorem findDirentIdx33_first {b cs ds} (c : Consistent33 b cs ds) {k : Nat} {d : DDirent} (hk : ds[k]? = some d) (hl : d.deleted = false) :
    findDirentIdx33 ds d.filename = .ok (k, d) := by
  unfold findDirentIdx33
  obtain ⟨h1, h2⟩ := List.getElem?_eq_some_iff.mp hk
  have : ds.findIdx? (fun e => e.filename == d.filename) = some k := by
    rw [List.findIdx?_eq_some_iff_getElem]
    refine ⟨h1, by simp [h2], fun j hj => ?_⟩
    have := c.first k j d ds[j] hk (List.getElem?_eq_getElem (by omega)) hl hj
    simpa using this
  rw [this]
  simp only
  rw [List.getD_eq_getElem?_getD, hk]
  rfl

theorem deleteBody33_ok {b cs ds} (c : Consistent33 b cs ds) {k : Nat} {d : DDirent} (hk : ds[k]? = some d) (hl : d.deleted = false) :
    ∃ b' ts map, FileSecs b d ts map ∧ Deleted33 b b' cs ds k d ts map := by
  have hb := c.size
  have hdm := List.mem_of_getElem? hk
  have hkl := (List.getElem?_eq_some_iff.mp hk).1
  obtain ⟨ts, map, f1, f2, f3, f4⟩ := c.files d hdm hl
  have hv := length_sec33 hb (by omega : 272 < 560)
  obtain ⟨map', m1, m2, m3⟩ := freeSectors_ok (ts ++ map) (vtocMap33 (sec33 b 272))
    (fun n hn => by rw [length_vtocMap33]; have := (f4 n hn).1.2.1; omega)
  obtain ⟨w1, b1, b2, b3⟩ := calcBitmap33 (m := mount33 b ds) hb map'
  generalize hbA : splice b (256 * 272) (vtocStore33 (sec33 b 272) map') = bA
  have hvA := length_vtocStore33 hv map'
  have hlA : bA.length = 143360 := by rw [← hbA, length_splice _ _ _ (by rw [hvA, hb]; omega), hb]
  have hsA : sec33 bA 272 = vtocStore33 (sec33 b 272) map' := by rw [← hbA]; exact sec33_splice_same hb (by omega) hvA
  have hoA : ∀ s, s ≠ 272 → sec33 bA s = sec33 b s := by
    intro s hs; rw [← hbA]; exact sec33_splice_other hb (by omega) hvA hs
  have hne272 : ∀ x ∈ cs, x ≠ 272 := fun x hx h => c.cat272 (h ▸ hx)
  have hmem : ∀ e ∈ ds.set k d.markDeleted, e = d.markDeleted ∨ e ∈ ds := fun e he => (List.mem_or_eq_of_mem_set he).symm
  obtain ⟨cat, c1, c2, c3, c4⟩ := catCommit c (ds' := ds.set k d.markDeleted) (m := { mount33 b ds with bytes := bA })
    (by intro e he
        rcases hmem e he with rfl | he
        · obtain ⟨⟨a1, a2, a3, a4⟩, _⟩ := c.entry hk
          exact ⟨a1, a2, a3, fun h => by cases h⟩
        · obtain ⟨i, hi⟩ := List.getElem?_of_mem he
          exact (c.entry hi).1)
    (by intro h; have := congrArg List.length h; rw [List.length_set] at this; simp at this; rw [this] at hkl; simp at hkl)
    (by rw [List.length_set]; omega)
    (by rw [List.length_set]; exact c.room)
    rfl rfl hlA (fun x hx => hoA x (hne272 x hx))
  have hwv : Writable33 [w1] := by
    intro w hw
    rw [List.mem_singleton] at hw; subst hw
    exact ⟨by rw [b2]; omega, by rw [b3]; exact hvA⟩
  generalize hbD : writeAll33 bA [w1] = bD
  have hlD : bD.length = 143360 := by rw [← hbD]; exact length_writeAll33 _ _ hlA hwv
  have hsD : sec33 bD 272 = vtocStore33 (sec33 b 272) map' := by
    rw [← hbD]
    show sec33 (splice bA (256 * w1.num) w1.data) 272 = _
    rw [b2, b3]
    exact sec33_splice_same hlA (by omega) hvA
  have hoD : ∀ s, s ≠ 272 → sec33 bD s = sec33 bA s := by
    intro s hs
    rw [← hbD]
    refine sec33_writeAll_other _ _ hlA hwv s (fun w hw he => hs ?_)
    rw [List.mem_singleton] at hw; subst hw; rw [← he, b2]
  have cn := c4 bD hlD (fun x hx => by rw [hoD x (hne272 x hx), hoA x (hne272 x hx)])
  generalize hbE : writeAll33 bD cat = b' at cn
  have hvt : sec33 b' 272 = vtocStore33 (sec33 b 272) map' := by rw [cn.others 272 c.cat272, hsD]
  refine ⟨b', ts, map, f1, ?_, cn.size, cn.chain, cn.dir (by
    intro e he hdel
    rcases hmem e he with rfl | he
    · cases hdel
    · exact c.noText e he hdel), ?_, vtocKept_store hb hvt, ?_, ?_⟩
  · unfold DImg.deleteBody
    rw [getDirectory33 c]
    simp only
    rw [findDirentIdx33_first c hk hl]
    simp only
    have hsv : d.sectorsInVtoc (mount33 b ds).maxSectors (mount33 b ds).bytes = .ok (ts ++ map) := by
      unfold DDirent.sectorsInVtoc
      rw [show (mount33 b ds).maxSectors = 560 from rfl, show (mount33 b ds).bytes = b from rfl, f1.tsMap hb f2]
    rw [hsv]
    simp only
    have hgv : (mount33 b ds).getVtocMap = .ok (vtocMap33 (sec33 b 272)) := by
      unfold DImg.getVtocMap getSec33
      rw [if_pos (by show 272 < 560; omega)]
      rfl
    rw [hgv]
    simp only
    rw [m1]
    simp only
    rw [b1]
    have e1 : splice (mount33 b ds).bytes (256 * 272) (vtocStore33 (sec33 (mount33 b ds).bytes 272) map') = bA := hbA
    simp only at c1
    simp only [e1, c1]
    rw [writeSectors33_eq [w1] _ hlA rfl hwv]
    simp only [hbD]
    rw [writeSectors33_eq cat _ hlD rfl c2]
    simp only [hbE]
  · have := cn.term
    rw [List.length_set] at this
    exact this
  · intro s
    rw [isFree33_store cn.size hv hvt, m3, isFree33_iff hb]
    by_cases hm : s ∈ ts ++ map
    · rw [if_pos hm]
      have := (f4 s hm).1.2.1
      simp only [hm, or_true, iff_true, and_true]
      omega
    · rw [if_neg hm]
      refine ⟨fun h => .inl h.2, fun h => ?_⟩
      rcases h with h | h
      · exact ⟨((isFree33_iff hb s).mpr h).1, h⟩
      · exact absurd h hm
  · intro s h1 h2
    rw [cn.others s h2, hoD s h1, hoA s h1]

/-- entries after a delete -/
def entriesDel33 (ds : List DDirent) (k : Nat) (d : DDirent) : List DDirent := (ds.set k d.markDeleted).mapIdx fun i d => d.reread i

theorem getElem?_del33 {ds : List DDirent} {k : Nat} {d : DDirent} (hk : ds[k]? = some d) (i : Nat) :
    (entriesDel33 ds k d)[i]? = if i = k then some (d.markDeleted.reread k) else (ds[i]?).map fun e => e.reread i := by
  unfold entriesDel33
  rw [List.getElem?_mapIdx, List.getElem?_set]
  have hkl := (List.getElem?_eq_some_iff.mp hk).1
  by_cases h : i = k
  · subst h; simp [hkl]
  · rw [if_neg (by omega), if_neg h]

theorem deleted33_entry {b cs ds} (c : Consistent33 b cs ds) {k : Nat} {d : DDirent} (hk : ds[k]? = some d) :
    (d.markDeleted.reread k).deleted = true ∧ (d.markDeleted.reread k).isSane = true ∧ (d.markDeleted.reread k).filename = d.filename := by
  obtain ⟨e1, e2, _⟩ := c.entry hk
  have hn := c.names d (List.mem_of_getElem? hk)
  refine ⟨rfl, rfl, ?_⟩
  show rstripWs (d.filename.take 29) = d.filename
  rw [List.take_of_length_le e2, hn]

theorem deleted33_consistent {b b' cs ds k d ts map} (c : Consistent33 b cs ds) (hk : ds[k]? = some d) (hl : d.deleted = false)
    (hf : FileSecs b d ts map) (w : Deleted33 b b' cs ds k d ts map) : Consistent33 b' cs (entriesDel33 ds k d) := by
  have hdm := List.mem_of_getElem? hk
  obtain ⟨ts', map', f1, f2, f3, f4⟩ := c.files d hdm hl
  obtain ⟨rfl, rfl⟩ := hf.unique f1
  have hget := getElem?_del33 hk
  have hlen : (entriesDel33 ds k d).length = ds.length := by unfold entriesDel33; rw [List.length_mapIdx, List.length_set]
  obtain ⟨x1, x2, x3⟩ := deleted33_entry c hk
  have hold : ∀ (i : Nat) (e : DDirent), (entriesDel33 ds k d)[i]? = some e → i ≠ k → ∃ d0, ds[i]? = some d0 ∧ OldEntry d0 e := by
    intro i e hi hik
    rw [hget, if_neg hik] at hi
    obtain ⟨d0, h1, h2⟩ := Option.map_eq_some_iff.mp hi
    exact ⟨d0, h1, h2 ▸ oldEntry_reread c h1⟩
  refine c.step (k := k) w.size (w.others 0 (by omega) (fun h => (c.cat.lt 0 h).1 rfl)) w.kept w.chain w.dir ?_ ?_ ?_ hold ?_ ?_ ?_
  · rw [hlen]; exact w.term
  · rw [hlen]; exact c.room
  · intro s hs
    rcases (w.free s).mp hs with h | h
    · exact c.free s h
    · exact (f4 s h).1
  · intro i d0 hik hi hl0 ts0 map0 hf0 x hx
    obtain ⟨ts1, map1, g1, _, _, g4⟩ := c.files d0 (List.mem_of_getElem? hi) hl0
    obtain ⟨rfl, rfl⟩ := hf0.unique g1
    obtain ⟨⟨u1, u2, u3, u4⟩, u5⟩ := g4 x hx
    refine ⟨w.others x u3 u4, fun h => ?_⟩
    rcases (w.free x).mp h with h | h
    · exact u5 h
    · exact c.disjoint i k d0 d hi hk hik hl0 hl _ _ _ _ hf0 hf x hx h
  · intro e he
    rw [hget, if_pos rfl] at he
    injection he with he
    subst he
    refine ⟨x2, ?_, fun h => by rw [x1] at h; cases h⟩
    rw [x3]; exact c.names d hdm
  · intro i j e e' hi hj hle hji
    have hik : i ≠ k := by
      intro h; subst h
      rw [hget, if_pos rfl] at hi
      injection hi with hi
      rw [← hi, x1] at hle
      cases hle
    obtain ⟨d0, h1, h2⟩ := hold i e hi hik
    have hl0 : d0.deleted = false := by rw [← h2.live]; exact hle
    rw [h2.name]
    by_cases hjk : j = k
    · subst hjk
      rw [hget, if_pos rfl] at hj
      injection hj with hj
      rw [← hj, x3]
      exact c.first i j d0 d h1 hk hl0 hji
    · obtain ⟨e0, g1, g2⟩ := hold j e' hj hjk
      rw [g2.name]
      exact c.first i j d0 e0 h1 g1 hl0 hji

theorem deleted33_getFile {b b' cs ds k d ts map} (c : Consistent33 b cs ds) (w : Deleted33 b b' cs ds k d ts map) :
    ∀ (i : Nat) (d0 : DDirent), ds[i]? = some d0 → d0.deleted = false → (d0.reread i).getFile 560 b' = d0.getFile 560 b := by
  intro i d0 hi hl0
  refine c.contents_old w.size (List.mem_of_getElem? hi) hl0 (oldEntry_reread c hi) ?_
  intro ts0 map0 hf0 x hx
  obtain ⟨ts1, map1, g1, _, _, g4⟩ := c.files d0 (List.mem_of_getElem? hi) hl0
  obtain ⟨rfl, rfl⟩ := hf0.unique g1
  obtain ⟨⟨u1, u2, u3, u4⟩, u5⟩ := g4 x hx
  exact w.others x u3 u4

/-! ### shred -/

theorem sec33_fill_other {b : Bytes} (hb : b.length = 143360) {t : Nat} (ht : t < 560) (f : UInt8) {s : Nat} (h : s ≠ t) :
    sec33 (fillSlice b (256 * t) (256 * t + 256) f) s = sec33 b s ∧ (fillSlice b (256 * t) (256 * t + 256) f).length = 143360 := by
  have hl : (List.replicate (min (256 * t + 256) b.length - min (256 * t) b.length) f).length = 256 := by
    rw [List.length_replicate, hb]; omega
  unfold fillSlice
  refine ⟨sec33_splice_other hb ht hl h, ?_⟩
  rw [length_splice _ _ _ (by rw [hl, hb]; omega), hb]

theorem shredLoop33 {map : List Bool} (hm : map.length = 1280) (f : UInt8) : ∀ (l : List Nat) (m : DImg), (∀ x ∈ l, x < 560) →
    m.bytes.length = 143360 → ∃ b', DImg.shredLoop f map l m = (.ok (), { m with bytes := b' }) ∧ b'.length = 143360 ∧
      (∀ s, (s ∈ l → map[s]? ≠ some true) → sec33 b' s = sec33 m.bytes s) ∧
      ∀ s ∈ l, map[s]? = some true → sec33 b' s = List.replicate 256 f := by
  intro l
  induction l with
  | nil => intro m _ hb; exact ⟨m.bytes, rfl, hb, fun _ _ => rfl, fun s hs => by cases hs⟩
  | cons i l ih =>
    intro m hl hb
    have hi := hl i (by simp)
    have hget : ∃ v, map[i]? = some v := ⟨_, List.getElem?_eq_getElem (by omega)⟩
    obtain ⟨v, hv⟩ := hget
    simp only [DImg.shredLoop, hv]
    cases v with
    | false =>
      obtain ⟨b', h1, h2, h3, h4⟩ := ih m (fun x hx => hl x (by simp [hx])) hb
      refine ⟨b', h1, h2, fun s hs => h3 s (fun hsl => hs (by simp [hsl])), fun s hs ht => ?_⟩
      rcases List.mem_cons.mp hs with rfl | hs
      · rw [hv] at ht; cases ht
      · exact h4 s hs ht
    | true =>
      have hlen : (fillSlice m.bytes (256 * i) (256 * i + 256) f).length = 143360 :=
        (sec33_fill_other hb hi f (s := i + 1) (by omega)).2
      obtain ⟨b', h1, h2, h3, h4⟩ := ih { m with bytes := fillSlice m.bytes (256 * i) (256 * i + 256) f } (fun x hx => hl x (by simp [hx])) hlen
      have hself : sec33 (fillSlice m.bytes (256 * i) (256 * i + 256) f) i = List.replicate 256 f := by
        unfold fillSlice
        have hm : min (256 * i) m.bytes.length = 256 * i := by rw [hb]; omega
        have hm2 : min (256 * i + 256) m.bytes.length = 256 * i + 256 := by rw [hb]; omega
        rw [hm, hm2, show 256 * i + 256 - 256 * i = 256 by omega, sec33_splice_same hb hi (by rw [List.length_replicate])]
      refine ⟨b', h1, h2, ?_, ?_⟩
      · intro s hs
        have hsi : s ≠ i := by intro h; subst h; exact hs (by simp) hv
        rw [h3 s (fun hsl => hs (by simp [hsl]))]
        exact (sec33_fill_other hb hi f hsi).1
      · intro s hs ht
        by_cases hsl : s ∈ l
        · exact h4 s hsl ht
        · rcases List.mem_cons.mp hs with rfl | hs
          · rw [h3 s (fun h => absurd h hsl)]; exact hself
          · exact absurd hs hsl

structure Shredded33 (b b' : Bytes) (ds : List DDirent) (fill : Nat) : Prop where
  body : DImg.shredBody fill (mount33 b ds) = (.ok (), { mount33 b ds with bytes := b' })
  size : b'.length = 143360
  filled : ∀ s, IsFree33 b s → sec33 b' s = List.replicate 256 (UInt8.ofNat fill)
  others : ∀ s, ¬ IsFree33 b s → sec33 b' s = sec33 b s

theorem shredBody33_ok {b cs ds} (c : Consistent33 b cs ds) (fill : Nat) : ∃ b', Shredded33 b b' ds fill := by
  have hb := c.size
  obtain ⟨b', h1, h2, h3, h4⟩ := shredLoop33 (length_vtocMap33 (sec33 b 272)) (UInt8.ofNat fill) (List.range 560) (mount33 b ds)
    (fun x hx => List.mem_range.mp hx) hb
  refine ⟨b', ?_, h2, ?_, ?_⟩
  · unfold DImg.shredBody
    have hgv : (mount33 b ds).getVtocMap = .ok (vtocMap33 (sec33 b 272)) := by
      unfold DImg.getVtocMap getSec33
      rw [if_pos (by show 272 < 560; omega)]
      rfl
    rw [hgv]
    exact h1
  · intro s hs
    exact h4 s (List.mem_range.mpr (c.free s hs).2.1) ((isFree33_iff hb s).mp hs)
  · intro s hs
    exact h3 s (fun _ h => hs ((isFree33_iff hb s).mpr h))

theorem shredded33_consistent {b b' cs ds fill} (c : Consistent33 b cs ds) (w : Shredded33 b b' ds fill) : Consistent33 b' cs ds := by
  have h272 : sec33 b' 272 = sec33 b 272 := w.others 272 (fun h => (c.free 272 h).2.2.1 rfl)
  have hcs : ∀ x ∈ cs, sec33 b' x = sec33 b x := fun x hx => w.others x (fun h => (c.free x h).2.2.2 hx)
  have hfr : ∀ s, IsFree33 b' s ↔ IsFree33 b s := fun s => by unfold IsFree33; rw [h272]
  refine c.step (k := ds.length) w.size (w.others 0 (fun h => by have := (c.free 0 h).1; omega)) ⟨fun i _ => by rw [h272]⟩
    (c.cat.frame (fun x hx => by rw [hcs x hx])) (by rw [catRaw_frame hcs]; exact c.dir) (by rw [catRaw_frame hcs]; exact c.term) c.room
    (fun s hs => c.free s ((hfr s).mp hs)) (fun i d hi _ => ⟨d, hi, OldEntry.refl d⟩) ?_ ?_ c.first
  · intro i d0 _ hi hl ts map hf x hx
    obtain ⟨ts1, map1, g1, _, _, g4⟩ := c.files d0 (List.mem_of_getElem? hi) hl
    obtain ⟨rfl, rfl⟩ := hf.unique g1
    have := (g4 x hx).2
    exact ⟨w.others x this, fun h => this ((hfr x).mp h)⟩
  · intro d hd
    simp at hd

theorem shredded33_getFile {b b' cs ds fill} (c : Consistent33 b cs ds) (w : Shredded33 b b' ds fill) :
    ∀ d ∈ ds, d.deleted = false → d.getFile 560 b' = d.getFile 560 b := by
  intro d hd hl
  refine c.contents_old w.size hd hl (OldEntry.refl d) ?_
  intro ts map hf x hx
  obtain ⟨ts1, map1, g1, _, _, g4⟩ := c.files d hd hl
  obtain ⟨rfl, rfl⟩ := hf.unique g1
  exact w.others x (g4 x hx).2

end Atr
