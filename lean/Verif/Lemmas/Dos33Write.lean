import Verif.Lemmas.Dos33Commit
import Verif.Lemmas.AtariWrite
/-! # DOS 3.3: writing a file on a consistent volume -/
namespace Atr

/-! ### slots -/

theorem getFreeDirent33_spec (ds : List DDirent) : getFreeDirent33 ds ≤ ds.length ∧
    (∀ d, ds[getFreeDirent33 ds]? = some d → d.deleted = true) ∧
    (∀ (i : Nat) (d : DDirent), i < getFreeDirent33 ds → ds[i]? = some d → d.deleted = false) := by
  unfold getFreeDirent33
  cases hf : ds.findIdx? (·.deleted) with
  | none =>
    rw [List.findIdx?_eq_none_iff] at hf
    simp only
    refine ⟨Nat.le_refl _, by simp, ?_⟩
    intro i d _ hd
    exact hf d (List.mem_of_getElem? hd)
  | some k =>
    simp only
    rw [List.findIdx?_eq_some_iff_getElem] at hf
    obtain ⟨h1, h2, h3⟩ := hf
    refine ⟨by omega, ?_, ?_⟩
    · intro d hd
      rw [List.getElem?_eq_getElem h1] at hd
      injection hd with hd; subst hd; exact h2
    · intro i d hi hd
      have := h3 i hi
      rw [List.getElem?_eq_getElem (by omega)] at hd
      injection hd with hd; subst hd; simpa using this

theorem getElem?_setDirent33 {ds : List DDirent} {k : Nat} (hk : k ≤ ds.length) (e : DDirent) (i : Nat) :
    (setDirent33 ds k e)[i]? = if i = k then some e else ds[i]? := by
  unfold setDirent33
  split
  · rw [List.getElem?_set]; grind
  · rw [List.getElem?_append]; grind

theorem length_setDirent33 {ds : List DDirent} {k : Nat} (hk : k ≤ ds.length) (e : DDirent) :
    (setDirent33 ds k e).length = max ds.length (k + 1) := by
  unfold setDirent33; split <;> simp <;> omega

/-! ### names -/

theorem take29_pad (name : Bytes) : ∃ n, (padRight 30 (name.take 30)).take 29 = name.take 29 ++ List.replicate n 32 := by
  refine ⟨29 - (name.take 30).length, ?_⟩
  unfold padRight
  rw [List.take_append, List.take_take, List.take_replicate]
  congr 2
  omega

theorem rstripWs_pad33 (name : Bytes) : rstripWs ((padRight 30 (name.take 30)).take 29) = norm33 name := by
  obtain ⟨n, hn⟩ := take29_pad name
  rw [hn, rstripWs_spaces, norm33]

/-- the new entry as built by `write_file` -/
def rawEntry33 (name : Bytes) (ftype n first : Nat) : DDirent :=
  { DDirent.setValues name ftype with track := UInt8.ofNat (first / 16), sector := UInt8.ofNat (first % 16), numSectors := n }

/-- the new entry after it has been read back -/
def newEntry33 (name : Bytes) (ftype idx n first : Nat) : DDirent :=
  { fileNum := idx, ftype := ftype, track := UInt8.ofNat (first / 16), sector := UInt8.ofNat (first % 16)
    filename := norm33 name, numSectors := n }

theorem toNat_ofNat8 {n : Nat} (h : n < 256) : (UInt8.ofNat n).toNat = n := by
  rw [UInt8.toNat_ofNat']; exact Nat.mod_eq_of_lt h

theorem rawEntry33_ok {name : Bytes} {ftype n first : Nat} (ha : Ascii33 name) (ht : ftype < 128) (hf : first < 560) :
    (rawEntry33 name ftype n first).Encodable := by
  refine ⟨?_, ?_, ht, ?_⟩
  · intro c hc
    have hc : c ∈ padRight 30 (name.take 30) := hc
    unfold padRight at hc
    rcases List.mem_append.mp hc with hc | hc
    · exact ha c hc
    · rw [List.eq_of_mem_replicate hc]; decide
  · show (padRight 30 (name.take 30)).length ≤ 30
    unfold padRight
    simp; omega
  · intro _ h
    have h : UInt8.ofNat (first / 16) = 0xff := h
    have := congrArg UInt8.toNat h
    rw [toNat_ofNat8 (by omega)] at this
    have h2 : (0xff : UInt8).toNat = 255 := rfl
    omega

theorem rawEntry33_reread {name : Bytes} {ftype idx n first : Nat} (hf1 : 16 ≤ first) (hf : first < 560) (hn : n ≤ 560) :
    (rawEntry33 name ftype n first).reread idx = newEntry33 name ftype idx n first := by
  unfold DDirent.reread rawEntry33 newEntry33 DDirent.setValues
  simp only [Bool.false_eq_true, if_false]
  rw [rstripWs_pad33, Nat.mod_eq_of_lt (show n < 65536 by omega)]
  congr 1
  unfold DDirent.sanityCheck
  simp only [Bool.false_eq_true, if_false]
  rw [if_neg, if_neg, if_neg]
  · omega
  · rw [secOfTS_ofNat (by omega)]; omega
  · intro h
    have := congrArg UInt8.toNat h
    rw [toNat_ofNat8 (by omega)] at this
    have h2 : (0 : UInt8).toNat = 0 := rfl
    omega

/-! ### allocation -/

structure Reserved33 (b : Bytes) (k t : Nat) (order tsOrder : List Nat) (map1 map2 : List Bool) : Prop where
  res1 : reserve k (vtocMap33 (sec33 b 272)) = .ok (order, map1)
  res2 : reserve t map1 = .ok (tsOrder, map2)
  order_eq : order = (freePool33 b).take k
  ts_eq : tsOrder = ((freePool33 b).drop k).take t
  len1 : order.length = k
  len2 : tsOrder.length = t
  bits : ∀ i : Nat, map2[i]? = if i ∈ order ++ tsOrder then some false else (vtocMap33 (sec33 b 272))[i]?
  rest : freeList map2 = (freePool33 b).drop (k + t)

theorem reserved33_spec {b : Bytes} (hb : b.length = 143360) {k t : Nat} (hk : k + t ≤ (freePool33 b).length) :
    ∃ order tsOrder map1 map2, Reserved33 b k t order tsOrder map1 map2 := by
  have hf := freePool33_eq hb
  obtain ⟨order, map1, hr1⟩ := reserve_total k (vtocMap33 (sec33 b 272)) (by rw [hf]; omega)
  obtain ⟨r1, r2, r3, r4, r5, r6⟩ := reserve_ok hr1
  obtain ⟨tsOrder, map2, hr2⟩ := reserve_total t map1 (by rw [r2, List.length_drop, hf]; omega)
  obtain ⟨s1, s2, s3, s4, s5, s6⟩ := reserve_ok hr2
  refine ⟨order, tsOrder, map1, map2, hr1, hr2, by rw [r1, hf], by rw [s1, r2, hf], r4, s4, ?_, ?_⟩
  · intro i
    rw [s6, r6]
    simp only [List.mem_append]
    by_cases h1 : i ∈ tsOrder <;> by_cases h2 : i ∈ order <;> simp [h1, h2]
  · rw [s2, r2, List.drop_drop, hf]

theorem freePool33_nodup (b : Bytes) : (freePool33 b).Nodup := List.nodup_range.sublist List.filter_sublist

theorem Reserved33.all {b : Bytes} {k t order tsOrder map1 map2} (r : Reserved33 b k t order tsOrder map1 map2) :
    order ++ tsOrder = (freePool33 b).take (k + t) := by
  rw [r.order_eq, r.ts_eq, List.take_add]

theorem Reserved33.user {b cs ds} (c : Consistent33 b cs ds) {k t order tsOrder map1 map2}
    (r : Reserved33 b k t order tsOrder map1 map2) :
    (order ++ tsOrder).Nodup ∧ ∀ s ∈ order ++ tsOrder, UserSec33 cs s ∧ IsFree33 b s := by
  rw [r.all]
  refine ⟨(freePool33_nodup b).sublist (List.take_sublist _ _), ?_⟩
  intro s hs
  have h1 := mem_freePool33.mp (List.mem_of_mem_take hs)
  exact ⟨c.free s h1, h1⟩

/-! ### the sectors of the file -/

theorem linkSectors_plain : ∀ (ss : List WSector) (ns : List Nat) (f : Nat), ss.length = ns.length →
    (linkSectors WSector.setNextPlain f ss ns).map (·.num) = ns ∧
    (linkSectors WSector.setNextPlain f ss ns).map (·.data) = ss.map (·.data) := by
  intro ss
  induction ss with
  | nil => intro ns f h; cases ns with
    | nil => exact ⟨rfl, rfl⟩
    | cons => simp at h
  | cons s ss ih =>
    intro ns f h
    cases ns with
    | nil => simp at h
    | cons n ns =>
      obtain ⟨h1, h2⟩ := ih ns f (by simpa using h)
      simp only [linkSectors, List.map_cons]
      rw [h1, h2]
      exact ⟨rfl, rfl⟩

theorem linkSectors_33 : ∀ (ss : List WSector) (ns : List Nat) (f : Nat), ss.length = ns.length →
    (linkSectors WSector.setNext33 f ss ns).map (·.num) = ns ∧
    ∀ (j : Nat) (s w : WSector), ss[j]? = some s → (linkSectors WSector.setNext33 f ss ns)[j]? = some w →
      w.data = splice s.data 1 (tsBytes (ns.getD (j + 1) 0)) := by
  intro ss
  induction ss with
  | nil => intro ns f h; cases ns with
    | nil => exact ⟨rfl, fun j s w hs _ => by simp at hs⟩
    | cons => simp at h
  | cons s ss ih =>
    intro ns f h
    cases ns with
    | nil => simp at h
    | cons n ns =>
      obtain ⟨h1, h2⟩ := ih ns f (by simpa using h)
      simp only [linkSectors, List.map_cons]
      rw [h1]
      refine ⟨rfl, ?_⟩
      intro j s' w hs hw
      cases j with
      | zero =>
        simp only [List.getElem?_cons_zero, Option.some.injEq] at hs hw
        subst hs; subst hw
        cases ss with
        | nil => cases ns with
          | nil => rfl
          | cons => simp at h
        | cons => cases ns with
          | nil => simp at h
          | cons => rfl
      | succ j =>
        rw [List.getElem?_cons_succ] at hs hw
        rw [h2 j s' w hs hw]
        rfl

/-- contents of a track/sector list sector before the link is stored -/
def tsData (nums : List Nat) : Bytes := splice (List.replicate 256 0) 12 (nums.flatMap tsBytes)

theorem length_tsBytes (nums : List Nat) : (nums.flatMap tsBytes).length = 2 * nums.length := by
  induction nums with
  | nil => rfl
  | cons n nums ih => rw [List.flatMap_cons, List.length_append, ih, List.length_cons]; simp [tsBytes]; omega

theorem length_tsData {nums : List Nat} (h : nums.length ≤ 122) : (tsData nums).length = 256 := by
  unfold tsData
  rw [length_splice _ _ _ (by rw [length_tsBytes, List.length_replicate]; omega), List.length_replicate]

theorem pairs_tsBytes : ∀ (nums : List Nat) (r : Bytes), (∀ n ∈ nums, n < 4096) →
    (chunks 2 (nums.flatMap tsBytes ++ r)).map (fun p => secOfTS (p.getD 0 0) (p.getD 1 0)) =
      nums ++ (chunks 2 r).map fun p => secOfTS (p.getD 0 0) (p.getD 1 0) := by
  intro nums
  induction nums with
  | nil => intro r _; rfl
  | cons n nums ih =>
    intro r h
    rw [List.flatMap_cons, List.append_assoc, chunks_append 2 (by omega) _ _ (by simp [tsBytes])]
    rw [List.map_cons, ih r (fun x hx => h x (by simp [hx]))]
    show secOfTS (UInt8.ofNat (n / 16)) (UInt8.ofNat (n % 16)) :: _ = _
    rw [secOfTS_ofNat (h n (by simp))]
    rfl

theorem pairs_zero : ∀ z, (chunks 2 (List.replicate (2 * z) (0 : UInt8))).map (fun p => secOfTS (p.getD 0 0) (p.getD 1 0)) = List.replicate z 0 := by
  intro z
  induction z with
  | zero => simp [chunks_nil]
  | succ z ih =>
    rw [show 2 * (z + 1) = 2 + 2 * z by omega, ← List.replicate_append_replicate, chunks_append 2 (by omega) _ _ (by simp), List.map_cons, ih]
    rfl

theorem tsPairs_tsData {nums : List Nat} (h : nums.length ≤ 122) (hn : ∀ n ∈ nums, n < 4096) (x : Nat) :
    tsPairsOf (splice (tsData nums) 1 (tsBytes x)) = nums ++ List.replicate (122 - nums.length) 0 := by
  have hl := length_tsData h
  have hb := length_tsBytes nums
  unfold tsPairsOf
  rw [drop_splice (by simp [tsBytes]) (by omega)]
  have : (tsData nums).drop 12 = nums.flatMap tsBytes ++ List.replicate (2 * (122 - nums.length)) 0 := by
    unfold tsData splice
    rw [List.append_assoc, List.drop_append, List.drop_of_length_le (by rw [List.length_take]; omega), List.nil_append, List.length_take,
      List.length_replicate, show 12 - min 12 256 = 0 by omega, List.drop_zero, List.drop_replicate]
    congr 2
    omega
  rw [this, pairs_tsBytes nums _ hn, pairs_zero]

theorem tsSectors_ok : ∀ (cs : List (List Nat)), (∀ c ∈ cs, c.length ≤ 122) →
    ∃ l, tsSectors cs = .ok l ∧ l.map (·.data) = cs.map tsData := by
  intro cs
  induction cs with
  | nil => intro _; exact ⟨[], rfl, rfl⟩
  | cons c cs ih =>
    intro h
    obtain ⟨l, h1, h2⟩ := ih (fun x hx => h x (by simp [hx]))
    refine ⟨{ WSector.blank 256 with data := tsData c, used := 256 } :: l, ?_, ?_⟩
    · simp only [tsSectors, tsSector]
      rw [if_neg (by have := h c (by simp); omega), h1]
      rfl
    · rw [List.map_cons, List.map_cons, h2]

/-- the pairs read from the list sectors of a file -/
theorem flatMap_pairs {b : Bytes} : ∀ (gs : List (List Nat)) (ns : List Nat), gs.length = ns.length →
    (∀ g ∈ gs, g.length ≤ 122) → (∀ g ∈ gs.dropLast, g.length = 122) → (∀ g ∈ gs, ∀ n ∈ g, n < 4096) →
    (∀ (j n : Nat) (g : List Nat), gs[j]? = some g → ns[j]? = some n → ∃ x, sec33 b n = splice (tsData g) 1 (tsBytes x)) →
    ∃ z, ns.flatMap (fun t => tsPairsOf (sec33 b t)) = gs.flatten ++ List.replicate z 0 := by
  intro gs
  induction gs with
  | nil => intro ns h _ _ _ _; cases ns with
    | nil => exact ⟨0, rfl⟩
    | cons => simp at h
  | cons g gs ih =>
    intro ns h h1 h2 h3 h4
    cases ns with
    | nil => simp at h
    | cons n ns =>
      obtain ⟨x, hx⟩ := h4 0 n g rfl rfl
      have hp := tsPairs_tsData (h1 g (by simp)) (h3 g (by simp)) x
      rw [List.flatMap_cons, hx, hp]
      cases gs with
      | nil =>
        cases ns with
        | nil => exact ⟨122 - g.length, by simp⟩
        | cons => simp at h
      | cons g' gs =>
        obtain ⟨z, hz⟩ := ih ns (by simpa using h) (fun y hy => h1 y (by simp [hy]))
          (fun y hy => h2 y (by rw [List.dropLast_cons_of_ne_nil (by simp)]; simp [hy])) (fun y hy => h3 y (by simp [hy]))
          (fun j m y hy hm => h4 (j + 1) m y (by rw [List.getElem?_cons_succ]; exact hy) (by rw [List.getElem?_cons_succ]; exact hm))
        have hg : g.length = 122 := h2 g (by rw [List.dropLast_cons_of_ne_nil (by simp)]; simp)
        refine ⟨z, ?_⟩
        rw [hz, hg]
        simp

theorem padded33_append {p d : Bytes} (hp : p.length = 256) : padded33 (p ++ d) = p ++ padded33 d := by
  unfold padded33
  rw [List.append_assoc, List.length_append, hp, show (256 + d.length) % 256 = d.length % 256 by omega]

theorem pieces33_flatten (data : Bytes) : ((chunks 256 data).map fun p => (WSector.ofData 256 p).data).flatten = padded33 data := by
  induction data using chunks_induction 256 (by omega) with
  | nil => simp [chunks_nil, padded33]
  | step v hv ih =>
    rw [chunks_cons 256 (by omega) v hv, List.map_cons, List.flatten_cons, ih,
      (ofData_data 256 (v.take 256) (by rw [List.length_take]; omega)).1]
    by_cases h : 256 ≤ v.length
    · have hl : (v.take 256).length = 256 := by rw [List.length_take]; omega
      rw [hl]
      conv => rhs; rw [← List.take_append_drop 256 v, padded33_append hl]
      rw [show 256 - 256 = 0 by omega, List.replicate_zero, List.append_nil]
    · have h0 : 0 < v.length := List.length_pos_iff.mpr hv
      rw [List.take_of_length_le (by omega), List.drop_of_length_le (by omega)]
      unfold padded33
      rw [show (256 - v.length % 256) % 256 = 256 - v.length by omega]
      simp

theorem flatMap_written {b : Bytes} : ∀ (ws : List WSector), (∀ w ∈ ws, sec33 b w.num = w.data) →
    (ws.map (·.num)).flatMap (sec33 b) = (ws.map (·.data)).flatten := by
  intro ws
  induction ws with
  | nil => intro _; rfl
  | cons w ws ih =>
    intro h
    rw [List.map_cons, List.map_cons, List.flatMap_cons, List.flatten_cons, h w (by simp), ih (fun x hx => h x (by simp [hx]))]

theorem calcBitmap33 {m : DImg} (hb : m.bytes.length = 143360) (map : List Bool) : ∃ w,
    DImg.calcBitmap map m = (.ok w, { m with bytes := splice m.bytes (256 * 272) (vtocStore33 (sec33 m.bytes 272) map) }) ∧
    w.num = 272 ∧ w.data = vtocStore33 (sec33 m.bytes 272) map := by
  refine ⟨_, rfl, rfl, ?_⟩
  exact ofData_full (length_vtocStore33 (length_sec33 hb (by omega)) map)

/-- effect of a successful write -/
structure Written33 (b b' : Bytes) (cs : List Nat) (ds : List DDirent) (name : Bytes) (ftype : Nat) (data : Bytes)
    (order tsOrder : List Nat) (map1 map2 : List Bool) : Prop where
  body : DImg.writeBody name ftype data (mount33 b ds) = (.ok (), { mount33 b ds with bytes := b' })
  res : Reserved33 b (dataSecs33 data.length) (listSecs33 data.length) order tsOrder map1 map2
  size : b'.length = 143360
  chain : Chain33 b' (linkOf (sec33 b 272)) cs
  dir : ftype ≠ 0 → scanCatSec 560 0 (catRaw b' cs) = (setDirent33 ds (getFreeDirent33 ds) (rawEntry33 name ftype
    (dataSecs33 data.length + listSecs33 data.length) (tsOrder.headD 0))).mapIdx fun i d => d.reread i
  term : ∀ e ∈ (catRaw b' cs).drop (max ds.length (getFreeDirent33 ds + 1)), UnusedSlot e
  vtoc : sec33 b' 272 = vtocStore33 (sec33 b 272) map2
  contents : order.flatMap (sec33 b') = padded33 data
  list : Chain33 b' (tsOrder.headD 0) tsOrder
  pairs : (tsOrder.flatMap fun t => tsPairsOf (sec33 b' t)).take (dataSecs33 data.length) = order
  others : ∀ s, s ≠ 272 → s ∉ cs → s ∉ order ++ tsOrder → sec33 b' s = sec33 b s
  lists : ∀ (j n : Nat) (g : List Nat), (chunks 122 order)[j]? = some g → tsOrder[j]? = some n →
    ∃ x, sec33 b' n = splice (tsData g) 1 (tsBytes x)

theorem writeBody33_ok {b cs ds} (c : Consistent33 b cs ds) {name data : Bytes} {ftype : Nat} (hne : data ≠ [])
    (ha : Ascii33 name) (ht : ftype < 128) (hidx : getFreeDirent33 ds < 7 * (cs.length - 1))
    (hk : dataSecs33 data.length + listSecs33 data.length ≤ (freePool33 b).length) :
    ∃ b' order tsOrder map1 map2, Written33 b b' cs ds name ftype data order tsOrder map1 map2 := by
  have hb := c.size
  obtain ⟨order, tsOrder, map1, map2, r⟩ := reserved33_spec hb hk
  obtain ⟨und, uall⟩ := r.user c
  have hpos : 0 < data.length := List.length_pos_iff.mpr hne
  have hk0 : 0 < dataSecs33 data.length := by unfold dataSecs33; omega
  have ht1 : 0 < listSecs33 data.length := by unfold listSecs33; omega
  have hordl : ∀ x ∈ order, x < 560 := fun x hx => (uall x (by simp [hx])).1.2.1
  have htsl : ∀ x ∈ tsOrder, x < 560 := fun x hx => (uall x (by simp [hx])).1.2.1
  -- data sectors
  have hsl0 : (buildSectors33 data).length = dataSecs33 data.length := by
    unfold buildSectors33 dataSecs33
    rw [List.length_map, length_chunks 256 (by omega)]; omega
  obtain ⟨l1, l2⟩ := linkSectors_plain (buildSectors33 data) order 0 (by rw [hsl0, r.len1])
  generalize hsl : linkSectors WSector.setNextPlain 0 (buildSectors33 data) order = sl at l1 l2
  have hsll : sl.length = dataSecs33 data.length := by have := congrArg List.length l1; rw [List.length_map] at this; rw [this, r.len1]
  have hsldata : ∀ w ∈ sl, w.data.length = 256 := by
    intro w hw
    have : w.data ∈ sl.map (·.data) := List.mem_map_of_mem hw
    rw [l2] at this
    obtain ⟨s, hs, hsd⟩ := List.mem_map.mp this
    obtain ⟨p, hp, rfl⟩ := List.mem_map.mp hs
    have hpl := (mem_chunks_length 256 (by omega) data p hp).2
    rw [← hsd, (ofData_data 256 p hpl).1, List.length_append, List.length_replicate]
    omega
  -- list sectors
  obtain ⟨tl0, t1, t2⟩ := tsSectors_ok (chunks 122 order) (fun x hx => (mem_chunks_length 122 (by omega) order x hx).2)
  have htl0 : tl0.length = listSecs33 data.length := by
    have := congrArg List.length t2
    rw [List.length_map, List.length_map, length_chunks 122 (by omega), r.len1] at this
    unfold listSecs33
    omega
  obtain ⟨k1, k2⟩ := linkSectors_33 tl0 tsOrder 0 (by rw [htl0, r.len2])
  generalize htl : linkSectors WSector.setNext33 0 tl0 tsOrder = tl at k1 k2
  have htll : tl.length = listSecs33 data.length := by have := congrArg List.length k1; rw [List.length_map] at this; rw [this, r.len2]
  have hchl : (chunks 122 order).length = tsOrder.length := by
    have := congrArg List.length t2
    rw [List.length_map, List.length_map, htl0, ← r.len2] at this
    exact this.symm
  have htlw : ∀ (j : Nat) (w : WSector), tl[j]? = some w → ∃ g n, (chunks 122 order)[j]? = some g ∧ tsOrder[j]? = some n ∧ w.num = n ∧
      w.data = splice (tsData g) 1 (tsBytes (tsOrder.getD (j + 1) 0)) := by
    intro j w hj
    have hjl : j < tl0.length := by rw [htl0, ← htll]; exact (List.getElem?_eq_some_iff.mp hj).1
    have hd := k2 j tl0[j] w (List.getElem?_eq_getElem hjl) hj
    have hg : ((chunks 122 order).map tsData)[j]? = some tl0[j].data := by
      rw [← t2, List.getElem?_map, List.getElem?_eq_getElem hjl]; rfl
    rw [List.getElem?_map] at hg
    obtain ⟨g, hg1, hg2⟩ := Option.map_eq_some_iff.mp hg
    have hn : tsOrder[j]? = some w.num := by rw [← k1, List.getElem?_map, hj]; rfl
    exact ⟨g, w.num, hg1, hn, rfl, by rw [hd, hg2]⟩
  have hg122 : ∀ g ∈ chunks 122 order, g.length ≤ 122 := fun g hg => (mem_chunks_length 122 (by omega) order g hg).2
  have htldata : ∀ w ∈ tl, w.data.length = 256 := by
    intro w hw
    obtain ⟨j, hj⟩ := List.getElem?_of_mem hw
    obtain ⟨g, n, h1, _, _, h4⟩ := htlw j w hj
    have hl := length_tsData (hg122 g (List.mem_of_getElem? h1))
    rw [h4, length_splice _ _ _ (by rw [hl]; simp [tsBytes]), hl]
  have hnums : (sl ++ tl).map (·.num) = order ++ tsOrder := by rw [List.map_append, l1, k1]
  have hwr : Writable33 (sl ++ tl) := by
    intro w hw
    refine ⟨?_, ?_⟩
    · have : w.num ∈ (sl ++ tl).map (·.num) := List.mem_map_of_mem hw
      rw [hnums] at this
      exact (uall _ this).1.2.1
    · rcases List.mem_append.mp hw with hw | hw
      · exact hsldata w hw
      · exact htldata w hw
  -- bitmap
  have hv := length_sec33 hb (by omega : 272 < 560)
  obtain ⟨w1, b1, b2, b3⟩ := calcBitmap33 (m := mount33 b ds) hb map1
  generalize hbA : splice b (256 * 272) (vtocStore33 (sec33 b 272) map1) = bA
  have hvA := length_vtocStore33 hv map1
  have hlA : bA.length = 143360 := by rw [← hbA, length_splice _ _ _ (by rw [hvA, hb]; omega), hb]
  have hsA : sec33 bA 272 = vtocStore33 (sec33 b 272) map1 := by rw [← hbA]; exact sec33_splice_same hb (by omega) hvA
  have hoA : ∀ s, s ≠ 272 → sec33 bA s = sec33 b s := by
    intro s hs; rw [← hbA]; exact sec33_splice_other hb (by omega) hvA hs
  obtain ⟨w2, d1, d2, d3⟩ := calcBitmap33 (m := { mount33 b ds with bytes := bA }) hlA map2
  have hst : vtocStore33 (sec33 bA 272) map2 = vtocStore33 (sec33 b 272) map2 := by rw [hsA, vtocStore33_twice hv]
  simp only [hst] at d1 d3
  generalize hbB : splice bA (256 * 272) (vtocStore33 (sec33 b 272) map2) = bB at d1
  have hvB := length_vtocStore33 hv map2
  have hlB : bB.length = 143360 := by rw [← hbB, length_splice _ _ _ (by rw [hvB, hlA]; omega), hlA]
  have hoB : ∀ s, s ≠ 272 → sec33 bB s = sec33 b s := by
    intro s hs; rw [← hbB, sec33_splice_other hlA (by omega) hvB hs, hoA s hs]
  have hne272 : ∀ x ∈ cs, x ≠ 272 := fun x hx h => c.cat272 (h ▸ hx)
  -- catalog
  obtain ⟨fs1, fs2, fs3⟩ := getFreeDirent33_spec ds
  have hts0 : tsOrder.headD 0 ∈ tsOrder := by
    cases htt : tsOrder with
    | nil => have := r.len2; rw [htt] at this; simp at this; omega
    | cons a l => simp
  have hraw := rawEntry33_ok (n := dataSecs33 data.length + listSecs33 data.length) ha ht (htsl _ hts0)
  generalize hnd : rawEntry33 name ftype (dataSecs33 data.length + listSecs33 data.length) (tsOrder.headD 0) = nd at hraw
  have hndd : nd.deleted = false ∧ nd.ftype = ftype := by rw [← hnd]; exact ⟨rfl, rfl⟩
  have hmem : ∀ d ∈ setDirent33 ds (getFreeDirent33 ds) nd, d = nd ∨ ∃ i : Nat, ds[i]? = some d := by
    intro d hd
    obtain ⟨i, hi⟩ := List.getElem?_of_mem hd
    rw [getElem?_setDirent33 fs1] at hi
    split at hi
    · left; injection hi with hi; exact hi.symm
    · right; exact ⟨i, hi⟩
  obtain ⟨cat, c1, c2, c3, c4⟩ := catCommit c (ds' := setDirent33 ds (getFreeDirent33 ds) nd) (m := { mount33 b ds with bytes := bB })
    (by intro d hd
        rcases hmem d hd with rfl | ⟨i, hi⟩
        · exact hraw
        · exact (c.entry hi).1)
    (by intro h; have := congrArg List.length h; rw [length_setDirent33 fs1] at this; simp at this)
    (by rw [length_setDirent33 fs1]; omega)
    (by rw [length_setDirent33 fs1]; have := c.room; omega)
    rfl rfl hlB (fun x hx => hoB x (hne272 x hx))
  -- bytes after the file and the VTOC have been written
  generalize hbC : writeAll33 bB (sl ++ tl) = bC
  have hlC : bC.length = 143360 := by rw [← hbC]; exact length_writeAll33 _ _ hlB hwr
  have hwv : Writable33 [w1, w2] := by
    intro w hw
    rcases List.mem_cons.mp hw with rfl | hw
    · exact ⟨by rw [b2]; omega, by rw [b3]; exact hvA⟩
    · rw [List.mem_singleton] at hw; subst hw
      exact ⟨by rw [d2]; omega, by rw [d3]; exact hvB⟩
  generalize hbD : writeAll33 bC [w1, w2] = bD
  have hlD : bD.length = 143360 := by rw [← hbD]; exact length_writeAll33 _ _ hlC hwv
  have hsD : sec33 bD 272 = vtocStore33 (sec33 b 272) map2 := by
    rw [← hbD]
    show sec33 (splice (splice bC (256 * w1.num) w1.data) (256 * w2.num) w2.data) 272 = _
    have hl1 : (splice bC (256 * w1.num) w1.data).length = 143360 := by
      rw [b2, b3, length_splice _ _ _ (by show 256 * 272 + (vtocStore33 (sec33 b 272) map1).length ≤ _; rw [hvA, hlC]; omega), hlC]
    rw [d2, d3, sec33_splice_same hl1 (by omega) hvB]
  have hoD : ∀ s, s ≠ 272 → sec33 bD s = sec33 bC s := by
    intro s hs
    rw [← hbD]
    refine sec33_writeAll_other _ _ hlC hwv s (fun w hw he => hs ?_)
    rcases List.mem_cons.mp hw with rfl | hw
    · rw [← he, b2]
    · rw [List.mem_singleton] at hw; subst hw; rw [← he, d2]
  have hcsC : ∀ x ∈ cs, sec33 bC x = sec33 b x := by
    intro x hx
    rw [← hbC, sec33_writeAll_other _ _ hlB hwr x, hoB x (hne272 x hx)]
    intro w hw he
    have : w.num ∈ (sl ++ tl).map (·.num) := List.mem_map_of_mem hw
    rw [hnums] at this
    exact (uall _ this).1.2.2.2 (he ▸ hx)
  have cn := c4 bD hlD (fun x hx => by rw [hoD x (hne272 x hx), hcsC x hx])
  generalize hbE : writeAll33 bD cat = b' at cn
  -- file sectors in the final image
  have hfile : ∀ w ∈ sl ++ tl, sec33 b' w.num = w.data := by
    intro w hw
    have hwn : w.num ∈ (sl ++ tl).map (·.num) := List.mem_map_of_mem hw
    rw [hnums] at hwn
    obtain ⟨_, _, u3, u4⟩ := (uall _ hwn).1
    rw [cn.others _ u4, hoD _ u3, ← hbC]
    exact sec33_writeAll_mem _ _ hlB hwr (by rw [hnums]; exact und) w hw
  have hlists : ∀ (j n : Nat) (g : List Nat), (chunks 122 order)[j]? = some g → tsOrder[j]? = some n →
      ∃ x, sec33 b' n = splice (tsData g) 1 (tsBytes x) := by
    intro j n g hg hn
    have hjl : j < tl.length := by rw [htll, ← r.len2]; exact (List.getElem?_eq_some_iff.mp hn).1
    obtain ⟨g', n', h1, h2, h3, h4⟩ := htlw j tl[j] (List.getElem?_eq_getElem hjl)
    rw [hg] at h1; injection h1 with h1; subst h1
    rw [hn] at h2; injection h2 with h2; subst h2
    have := hfile tl[j] (by simp)
    rw [h3, h4] at this
    exact ⟨_, this⟩
  refine ⟨b', order, tsOrder, map1, map2, ?_, r, cn.size, cn.chain, ?_, ?_, ?_, ?_, ?_, ?_, ?_, hlists⟩
  · unfold DImg.writeBody
    rw [getDirectory33 c]
    simp only
    have hgv : (mount33 b ds).getVtocMap = .ok (vtocMap33 (sec33 b 272)) := by
      unfold DImg.getVtocMap getSec33
      rw [if_pos (by show 272 < 560; omega)]
      rfl
    rw [hgv]
    simp only
    rw [hsl0, r.res1]
    simp only
    rw [b1]
    simp only [hsl]
    have hbt : buildTsList (mount33 b ds).tsPairs (sl.map (·.num)) = .ok tl0 := by
      show buildTsList 122 _ = _
      unfold buildTsList
      rw [if_neg (by omega), l1, t1]
    have e1 : splice (mount33 b ds).bytes (256 * 272) (vtocStore33 (sec33 (mount33 b ds).bytes 272) map1) = bA := hbA
    simp only [e1]
    simp only at c1
    simp only [hbt, htl0, r.res2, d1, htl]
    cases htlc : tl with
    | nil => rw [htlc] at htll; simp at htll; omega
    | cons t0 ts =>
      simp only
      have ht0n : t0.num = tsOrder.headD 0 := by rw [← k1, htlc]; rfl
      have hne : ({ DDirent.setValues name ftype with
          track := UInt8.ofNat (t0.num / 16), sector := UInt8.ofNat (t0.num % 16),
          numSectors := (sl ++ t0 :: ts).length } : DDirent) = nd := by
        rw [← hnd, ← htlc, List.length_append, hsll, htll, ht0n]
        rfl
      rw [hne, c1]
      simp only
      rw [← htlc, writeSectors33_eq (sl ++ tl) _ hlB rfl hwr]
      simp only [hbC]
      rw [writeSectors33_eq [w1, w2] _ hlC rfl hwv]
      simp only [hbD]
      rw [writeSectors33_eq cat _ hlD rfl c2]
      simp only [hbE]
  · intro ht0
    rw [cn.dir (by
      intro d hd hdel
      rcases hmem d hd with rfl | ⟨i, hi⟩
      · rw [hndd.2]; exact ht0
      · exact c.noText d (List.mem_of_getElem? hi) hdel), hnd]
  · have := cn.term
    rw [length_setDirent33 fs1] at this
    exact this
  · rw [cn.others 272 c.cat272, hsD]
  · have := flatMap_written sl (fun w hw => hfile w (by simp [hw]))
    rw [l1, l2] at this
    rw [this, ← pieces33_flatten, buildSectors33, List.map_map]
    rfl
  · refine chain_of_links tsOrder (fun n hn => ?_) (fun j n hj => ?_)
    · have := (uall n (by simp [hn])).1
      exact ⟨by have := this.1; omega, this.2.1⟩
    · have hjl : j < tl.length := by rw [htll, ← r.len2]; exact (List.getElem?_eq_some_iff.mp hj).1
      obtain ⟨g, n', h1, h2, h3, h4⟩ := htlw j tl[j] (List.getElem?_eq_getElem hjl)
      rw [hj] at h2; injection h2 with h2; subst h2
      have := hfile tl[j] (by simp)
      rw [h3, h4] at this
      rw [this, linkOf_setNext (length_tsData (hg122 g (List.mem_of_getElem? h1))) (by have := getD_lt_560 htsl (j + 1); omega)]
  · obtain ⟨z, hz⟩ := flatMap_pairs (b := b') (chunks 122 order) tsOrder hchl hg122 (chunks_dropLast 122 (by omega) order)
      (fun g hg n hn => by
        have : n ∈ order := by
          rw [← chunks_flatten 122 (by omega) order]
          exact List.mem_flatten.mpr ⟨g, hg, hn⟩
        have := hordl n this; omega)
      hlists
    rw [hz, chunks_flatten 122 (by omega), ← r.len1, List.take_left]
  · intro s h1 h2 h3
    rw [cn.others s h2, hoD s h1, ← hbC, sec33_writeAll_other _ _ hlB hwr s, hoB s h1]
    intro w hw he
    have : w.num ∈ (sl ++ tl).map (·.num) := List.mem_map_of_mem hw
    rw [hnums] at this
    exact h3 (he ▸ this)

end Atr
