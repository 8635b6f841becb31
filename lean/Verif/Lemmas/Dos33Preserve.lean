import Verif.Lemmas.Dos33Write
/-! # DOS 3.3: operations keep volumes consistent -/
namespace Atr

/-- an entry that was only rewritten -/
structure OldEntry (d0 d : DDirent) : Prop where
  name : d.filename = d0.filename
  track : d.track = d0.track
  sector : d.sector = d0.sector
  num : d.numSectors = d0.numSectors
  live : d.deleted = d0.deleted
  type : d.deleted = false → d.ftype = d0.ftype
  sane : d.isSane = d0.isSane

theorem OldEntry.refl (d : DDirent) : OldEntry d d := ⟨rfl, rfl, rfl, rfl, rfl, fun _ => rfl, rfl⟩

theorem oldEntry_reread {b cs ds} (c : Consistent33 b cs ds) {i : Nat} {d : DDirent} (h : ds[i]? = some d) : OldEntry d (d.reread i) := by
  rw [c.reread h]
  exact ⟨rfl, rfl, rfl, rfl, rfl, fun (hd : d.deleted = false) => by show (if d.deleted then 127 else d.ftype) = d.ftype; rw [hd]; rfl, rfl⟩

theorem Consistent33.step {b cs ds} (c : Consistent33 b cs ds) {b' : Bytes} {ds' : List DDirent} {k : Nat}
    (size : b'.length = 143360) (h0 : sec33 b' 0 = sec33 b 0) (hv : VtocKept b b')
    (chain : Chain33 b' (linkOf (sec33 b 272)) cs) (dir : scanCatSec 560 0 (catRaw b' cs) = ds')
    (term : ∀ e ∈ (catRaw b' cs).drop ds'.length, UnusedSlot e) (room : ds'.length ≤ 7 * (cs.length - 1))
    (hfree : ∀ s, IsFree33 b' s → UserSec33 cs s)
    (hold : ∀ (i : Nat) (d : DDirent), ds'[i]? = some d → i ≠ k → ∃ d0, ds[i]? = some d0 ∧ OldEntry d0 d)
    (hkeep : ∀ (i : Nat) (d0 : DDirent), i ≠ k → ds[i]? = some d0 → d0.deleted = false → ∀ ts map, FileSecs b d0 ts map →
      ∀ x ∈ ts ++ map, sec33 b' x = sec33 b x ∧ ¬ IsFree33 b' x)
    (hnew : ∀ d, ds'[k]? = some d → d.isSane = true ∧ rstripWs d.filename = d.filename ∧ (d.deleted = false → d.ftype ≠ 0 ∧
      ∃ ts map, FileSecs b' d ts map ∧ map ≠ [] ∧ (ts ++ map).Nodup ∧ (∀ x ∈ ts ++ map, UserSec33 cs x ∧ ¬ IsFree33 b' x) ∧
        ∀ (i : Nat) (d0 : DDirent), i ≠ k → ds[i]? = some d0 → d0.deleted = false → ∀ ts0 map0, FileSecs b d0 ts0 map0 →
          ∀ x ∈ ts ++ map, x ∉ ts0 ++ map0))
    (hfirst : ∀ (i j : Nat) (d e : DDirent), ds'[i]? = some d → ds'[j]? = some e → d.deleted = false → j < i → e.filename ≠ d.filename) :
    Consistent33 b' cs ds' := by
  have hk := hv.keep
  have hcase : ∀ d ∈ ds', ds'[k]? = some d ∨ ∃ i d0, i ≠ k ∧ ds'[i]? = some d ∧ ds[i]? = some d0 ∧ OldEntry d0 d := by
    intro d hd
    obtain ⟨i, hi⟩ := List.getElem?_of_mem hd
    by_cases hik : i = k
    · left; rw [← hik]; exact hi
    · obtain ⟨d0, h1, h2⟩ := hold i d hi hik
      exact .inr ⟨i, d0, hik, hi, h1, h2⟩
  -- files of rewritten entries
  have hof : ∀ (i : Nat) (d0 d : DDirent), i ≠ k → ds[i]? = some d0 → OldEntry d0 d → d.deleted = false →
      ∃ ts map, FileSecs b d0 ts map ∧ FileSecs b' d ts map ∧ map ≠ [] ∧ (ts ++ map).Nodup ∧
        ∀ x ∈ ts ++ map, UserSec33 cs x ∧ ¬ IsFree33 b' x := by
    intro i d0 d hik hi ho hl
    have hl0 : d0.deleted = false := by rw [← ho.live]; exact hl
    obtain ⟨ts, map, f1, f2, f3, f4⟩ := c.files d0 (List.mem_of_getElem? hi) hl0
    have hkp := hkeep i d0 hik hi hl0 ts map f1
    exact ⟨ts, map, f1, f1.frame (fun t ht => (hkp t (by simp [ht])).1) ho.track ho.sector ho.num, f2, f3,
      fun x hx => ⟨(f4 x hx).1, (hkp x hx).2⟩⟩
  refine ⟨size, ?_, ?_, ?_, ?_, ?_, ?_, c.cat272, c.catNe, dir, term, room, ?_, ?_, ?_, ?_, ?_, hfree, hfirst⟩
  · rw [h0]; exact c.boot
  · rw [hk _ (by omega)]; exact c.tracks
  · rw [hk _ (by omega)]; exact c.sectors
  · rw [hk _ (by omega)]; exact c.pairs
  · rw [hk _ (by omega), hk _ (by omega), hk _ (by omega)]; exact c.vtoc
  · rw [hv.link]; exact chain
  · intro d hd
    rcases hcase d hd with h | ⟨i, d0, _, _, h1, h2⟩
    · exact (hnew d h).1
    · rw [h2.sane]; exact c.sane d0 (List.mem_of_getElem? h1)
  · intro d hd hl
    rcases hcase d hd with h | ⟨i, d0, _, _, h1, h2⟩
    · exact ((hnew d h).2.2 hl).1
    · rw [h2.type hl]; exact c.noText d0 (List.mem_of_getElem? h1) (by rw [← h2.live]; exact hl)
  · intro d hd
    rcases hcase d hd with h | ⟨i, d0, _, _, h1, h2⟩
    · exact (hnew d h).2.1
    · rw [h2.name]; exact c.names d0 (List.mem_of_getElem? h1)
  · intro d hd hl
    rcases hcase d hd with h | ⟨i, d0, hik, _, h1, h2⟩
    · obtain ⟨_, ts, map, f1, f2, f3, f4, _⟩ := (hnew d h).2.2 hl
      exact ⟨ts, map, f1, f2, f3, f4⟩
    · obtain ⟨ts, map, _, f1, f2, f3, f4⟩ := hof i d0 d hik h1 h2 hl
      exact ⟨ts, map, f1, f2, f3, f4⟩
  · intro i j d e hi hj hij hdl hel ts map ts' map' hf hf' x hx
    by_cases hik : i = k
    · subst hik
      obtain ⟨_, ts1, map1, f1, f2, f3, f4, f5⟩ := (hnew d hi).2.2 hdl
      obtain ⟨rfl, rfl⟩ := hf.unique f1
      obtain ⟨e0, e1, e2⟩ := hold j e hj (Ne.symm hij)
      obtain ⟨ts2, map2, g1, g2, _⟩ := hof j e0 e (Ne.symm hij) e1 e2 hel
      obtain ⟨rfl, rfl⟩ := hf'.unique g2
      exact f5 j e0 (Ne.symm hij) e1 (by rw [← e2.live]; exact hel) _ _ g1 x hx
    · obtain ⟨d0, d1, d2⟩ := hold i d hi hik
      obtain ⟨ts1, map1, a1, a2, _⟩ := hof i d0 d hik d1 d2 hdl
      obtain ⟨rfl, rfl⟩ := hf.unique a2
      by_cases hjk : j = k
      · subst hjk
        obtain ⟨_, ts2, map2, f1, f2, f3, f4, f5⟩ := (hnew e hj).2.2 hel
        obtain ⟨rfl, rfl⟩ := hf'.unique f1
        intro hx'
        exact f5 i d0 hik d1 (by rw [← d2.live]; exact hdl) _ _ a1 x hx' hx
      · obtain ⟨e0, e1, e2⟩ := hold j e hj hjk
        obtain ⟨ts2, map2, g1, g2, _⟩ := hof j e0 e hjk e1 e2 hel
        obtain ⟨rfl, rfl⟩ := hf'.unique g2
        exact c.disjoint i j d0 e0 d1 e1 hij (by rw [← d2.live]; exact hdl) (by rw [← e2.live]; exact hel) _ _ _ _ a1 g1 x hx

/-- contents of a live file -/
theorem Consistent33.contents {b cs ds} (c : Consistent33 b cs ds) {d : DDirent} (hd : d ∈ ds) (hl : d.deleted = false) :
    ∃ ts map, FileSecs b d ts map ∧ map ≠ [] ∧ (ts ++ map).Nodup ∧ (∀ x ∈ ts ++ map, UserSec33 cs x ∧ ¬ IsFree33 b x) ∧
      d.getFile 560 b = .ok (map.flatMap (sec33 b)) := by
  obtain ⟨ts, map, f1, f2, f3, f4⟩ := c.files d hd hl
  exact ⟨ts, map, f1, f2, f3, f4, f1.getFile c.size f2 (c.sane d hd) (fun x hx => (f4 x (by simp [hx])).1.2.1)⟩

/-- contents do not change when the sectors of the file do not -/
theorem Consistent33.contents_old {b cs ds} (c : Consistent33 b cs ds) {b' : Bytes} (hb' : b'.length = 143360) {d0 d : DDirent}
    (hd : d0 ∈ ds) (hl : d0.deleted = false) (ho : OldEntry d0 d)
    (hk : ∀ ts map, FileSecs b d0 ts map → ∀ x ∈ ts ++ map, sec33 b' x = sec33 b x) : d.getFile 560 b' = d0.getFile 560 b := by
  obtain ⟨ts, map, f1, f2, f3, f4, f5⟩ := c.contents hd hl
  have hkp := hk ts map f1
  have := f1.frame (fun t ht => hkp t (by simp [ht])) ho.track ho.sector ho.num
  rw [f5, this.getFile hb' f2 (by rw [ho.sane]; exact c.sane d0 hd) (fun x hx => (f4 x (by simp [hx])).1.2.1),
    flatMap_frame33 (fun t ht => hkp t (by simp [ht]))]

/-! ### write -/

/-- entries after a write -/
def entriesAfter33 (ds : List DDirent) (name : Bytes) (ftype n first : Nat) : List DDirent :=
  (setDirent33 ds (getFreeDirent33 ds) (rawEntry33 name ftype n first)).mapIdx fun i d => d.reread i

theorem getElem?_after33 (ds : List DDirent) (name : Bytes) {ftype n first : Nat} (hf1 : 16 ≤ first) (hf : first < 560) (hn : n ≤ 560) (i : Nat) :
    (entriesAfter33 ds name ftype n first)[i]? = if i = getFreeDirent33 ds then some (newEntry33 name ftype i n first)
      else (ds[i]?).map fun d => d.reread i := by
  unfold entriesAfter33
  rw [List.getElem?_mapIdx, getElem?_setDirent33 (getFreeDirent33_spec ds).1]
  split
  · rw [Option.map_some, rawEntry33_reread hf1 hf hn]
  · rfl

/-- how a written file is found again -/
structure NewFile33 (b b' : Bytes) (cs : List Nat) (ds : List DDirent) (name : Bytes) (ftype : Nat) (data : Bytes)
    (order tsOrder : List Nat) : Prop where
  n : dataSecs33 data.length + listSecs33 data.length ≤ 560
  first1 : 16 ≤ tsOrder.headD 0
  first2 : tsOrder.headD 0 < 560
  secs : FileSecs b' (newEntry33 name ftype (getFreeDirent33 ds) (dataSecs33 data.length + listSecs33 data.length) (tsOrder.headD 0)) tsOrder order
  ne : order ≠ []
  free : ∀ s, IsFree33 b' s ↔ IsFree33 b s ∧ s ∉ order ++ tsOrder

theorem newFile33_spec {b b' cs ds name ftype data order tsOrder map1 map2} (c : Consistent33 b cs ds) (hne : data ≠ [])
    (w : Written33 b b' cs ds name ftype data order tsOrder map1 map2) : NewFile33 b b' cs ds name ftype data order tsOrder := by
  have hpos : 0 < data.length := List.length_pos_iff.mpr hne
  have hk0 : 0 < dataSecs33 data.length := by unfold dataSecs33; omega
  have ht1 : 0 < listSecs33 data.length := by unfold listSecs33; omega
  obtain ⟨und, uall⟩ := w.res.user c
  have hn : dataSecs33 data.length + listSecs33 data.length ≤ 560 := by
    have := nodup_length_le 560 _ und (fun x hx => (uall x hx).1.2.1)
    rw [List.length_append, w.res.len1, w.res.len2] at this
    exact this
  have hts0 : tsOrder.headD 0 ∈ tsOrder := by
    cases htt : tsOrder with
    | nil => have := w.res.len2; rw [htt] at this; simp at this; omega
    | cons a l => simp
  have hu := (uall _ (List.mem_append_right order hts0)).1
  refine ⟨hn, hu.1, hu.2.1, ⟨?_, ?_⟩, ?_, ?_⟩
  · show Chain33 b' (secOfTS (UInt8.ofNat (tsOrder.headD 0 / 16)) (UInt8.ofNat (tsOrder.headD 0 % 16))) tsOrder
    rw [secOfTS_ofNat (by have := hu.2.1; omega)]
    exact w.list
  · show order = List.take (dataSecs33 data.length + listSecs33 data.length - tsOrder.length) _
    rw [w.res.len2, Nat.add_sub_cancel, w.pairs]
  · intro h; have := w.res.len1; rw [h] at this; simp at this; omega
  · intro s
    rw [isFree33_store w.size (length_sec33 c.size (by omega)) w.vtoc, w.res.bits, isFree33_iff c.size]
    by_cases hm : s ∈ order ++ tsOrder
    · rw [if_pos hm]; simp [hm]
    · rw [if_neg hm]
      refine ⟨fun h => ⟨h.2, hm⟩, fun h => ⟨?_, h.1⟩⟩
      exact ((isFree33_iff c.size s).mpr h.1).1

theorem written33_consistent {b b' cs ds name ftype data order tsOrder map1 map2} (c : Consistent33 b cs ds) (hne : data ≠ [])
    (ht0 : ftype ≠ 0) (hidx : getFreeDirent33 ds < 7 * (cs.length - 1)) (hname : norm33 name ∉ (mount33 b ds).names)
    (w : Written33 b b' cs ds name ftype data order tsOrder map1 map2) :
    Consistent33 b' cs (entriesAfter33 ds name ftype (dataSecs33 data.length + listSecs33 data.length) (tsOrder.headD 0)) := by
  have nf := newFile33_spec c hne w
  obtain ⟨und, uall⟩ := w.res.user c
  obtain ⟨fs1, fs2, fs3⟩ := getFreeDirent33_spec ds
  have hget := getElem?_after33 ds name (ftype := ftype) nf.first1 nf.first2 nf.n
  have hlen : (entriesAfter33 ds name ftype (dataSecs33 data.length + listSecs33 data.length) (tsOrder.headD 0)).length = max ds.length (getFreeDirent33 ds + 1) := by
    unfold entriesAfter33
    rw [List.length_mapIdx, length_setDirent33 fs1]
  have hlive : ∀ (i : Nat) (d : DDirent), ds[i]? = some d → d.deleted = false → d.filename ≠ norm33 name := by
    intro i d hi hl he
    refine hname ?_
    show norm33 name ∈ (ds.filter (fun d => !d.deleted)).map (·.filename)
    rw [← he]
    exact List.mem_map_of_mem (List.mem_filter.mpr ⟨List.mem_of_getElem? hi, by simp [hl]⟩)
  refine c.step (k := getFreeDirent33 ds) w.size ?_ (vtocKept_store c.size w.vtoc) w.chain (w.dir ht0) ?_ ?_ ?_ ?_ ?_ ?_ ?_
  · refine w.others 0 (by omega) (fun h => (c.cat.lt 0 h).1 rfl) (fun h => ?_)
    have := (uall 0 h).1.1
    omega
  · rw [hlen]; exact w.term
  · rw [hlen]; have := c.room; omega
  · intro s hs
    exact c.free s ((nf.free s).mp hs).1
  · intro i d hi hik
    rw [hget, if_neg hik] at hi
    obtain ⟨d0, h1, h2⟩ := Option.map_eq_some_iff.mp hi
    exact ⟨d0, h1, h2 ▸ oldEntry_reread c h1⟩
  · intro i d0 hik hi hl ts map hf x hx
    obtain ⟨ts', map', f1, _, _, f4⟩ := c.files d0 (List.mem_of_getElem? hi) hl
    obtain ⟨rfl, rfl⟩ := hf.unique f1
    obtain ⟨⟨u1, u2, u3, u4⟩, u5⟩ := f4 x hx
    refine ⟨w.others x u3 u4 (fun h => u5 (uall x h).2), fun h => u5 ((nf.free x).mp h).1⟩
  · intro d hd
    rw [hget, if_pos rfl] at hd
    injection hd with hd
    subst hd
    refine ⟨rfl, rstripWs_idem _, fun _ => ⟨ht0, tsOrder, order, nf.secs, nf.ne, ?_, ?_, ?_⟩⟩
    · exact List.perm_append_comm.nodup_iff.mp und
    · intro x hx
      have hx' : x ∈ order ++ tsOrder := List.perm_append_comm.mem_iff.mp hx
      exact ⟨(uall x hx').1, fun h => ((nf.free x).mp h).2 hx'⟩
    · intro i d0 hik hi hl ts0 map0 hf x hx hx0
      obtain ⟨ts', map', f1, _, _, f4⟩ := c.files d0 (List.mem_of_getElem? hi) hl
      obtain ⟨rfl, rfl⟩ := hf.unique f1
      exact (f4 x hx0).2 (uall x (List.perm_append_comm.mem_iff.mp hx)).2
  · intro i j d e hi hj hl hji
    rw [hget] at hi hj
    by_cases hik : i = getFreeDirent33 ds
    · rw [if_pos hik] at hi
      injection hi with hi
      subst hi
      rw [if_neg (by omega)] at hj
      obtain ⟨e0, h1, h2⟩ := Option.map_eq_some_iff.mp hj
      rw [← h2, (oldEntry_reread c h1).name]
      exact hlive j e0 h1 (fs3 j e0 (by omega) h1)
    · rw [if_neg hik] at hi
      obtain ⟨d0, h1, h2⟩ := Option.map_eq_some_iff.mp hi
      have ho := oldEntry_reread c h1
      rw [h2] at ho
      have hl0 : d0.deleted = false := by rw [← ho.live]; exact hl
      rw [ho.name]
      by_cases hjk : j = getFreeDirent33 ds
      · rw [if_pos hjk] at hj
        injection hj with hj
        subst hj
        exact fun h => hlive i d0 h1 hl0 h.symm
      · rw [if_neg hjk] at hj
        obtain ⟨e0, g1, g2⟩ := Option.map_eq_some_iff.mp hj
        rw [← g2, (oldEntry_reread c g1).name]
        exact c.first i j d0 e0 h1 g1 hl0 hji

/-- contents after a write -/
theorem written33_getFile {b b' cs ds name ftype data order tsOrder map1 map2} (c : Consistent33 b cs ds) (hne : data ≠ [])
    (w : Written33 b b' cs ds name ftype data order tsOrder map1 map2) :
    (newEntry33 name ftype (getFreeDirent33 ds) (dataSecs33 data.length + listSecs33 data.length) (tsOrder.headD 0)).getFile 560 b' =
      .ok (padded33 data) ∧
    ∀ (i : Nat) (d0 : DDirent), ds[i]? = some d0 → d0.deleted = false → (d0.reread i).getFile 560 b' = d0.getFile 560 b := by
  have nf := newFile33_spec c hne w
  obtain ⟨und, uall⟩ := w.res.user c
  constructor
  · rw [nf.secs.getFile w.size nf.ne rfl (fun x hx => (uall x (by simp [hx])).1.2.1), w.contents]
  · intro i d0 hi hl
    refine c.contents_old w.size (List.mem_of_getElem? hi) hl (oldEntry_reread c hi) ?_
    intro ts map hf x hx
    obtain ⟨ts', map', f1, _, _, f4⟩ := c.files d0 (List.mem_of_getElem? hi) hl
    obtain ⟨rfl, rfl⟩ := hf.unique f1
    obtain ⟨⟨u1, u2, u3, u4⟩, u5⟩ := f4 x hx
    exact w.others x u3 u4 (fun h => u5 (uall x h).2)

end Atr
