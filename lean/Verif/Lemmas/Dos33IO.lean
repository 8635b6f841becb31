import Verif.Model.Dos33
import Verif.Lemmas.AtariWrite
/-! # DOS 3.3: sectors, VTOC, directory entries -/
namespace Atr

/-! ### sectors -/

theorem length_sec33 {b : Bytes} {s : Nat} (hb : b.length = 143360) (hs : s < 560) : (sec33 b s).length = 256 := by
  rw [sec33, length_slice]; omega

/-- write a list of sectors -/
def writeAll33 (b : Bytes) : List WSector → Bytes
  | [] => b
  | w :: ws => writeAll33 (splice b (256 * w.num) w.data) ws

def Writable33 (ws : List WSector) : Prop := ∀ w ∈ ws, w.num < 560 ∧ w.data.length = 256

theorem sec33_splice_other {b v : Bytes} {s t : Nat} (hb : b.length = 143360) (ht : t < 560) (hv : v.length = 256) (h : s ≠ t) :
    sec33 (splice b (256 * t) v) s = sec33 b s := by
  unfold sec33
  exact slice_splice_disjoint _ _ _ _ _ (by omega) (by omega)

theorem sec33_splice_same {b v : Bytes} {t : Nat} (hb : b.length = 143360) (ht : t < 560) (hv : v.length = 256) :
    sec33 (splice b (256 * t) v) t = v := by
  have := slice_splice_same b v (256 * t) (by omega)
  rw [hv] at this
  exact this

theorem length_writeAll33 : ∀ (ws : List WSector) (b : Bytes), b.length = 143360 → Writable33 ws →
    (writeAll33 b ws).length = 143360 := by
  intro ws
  induction ws with
  | nil => intro b hb _; exact hb
  | cons w ws ih =>
    intro b hb hw
    have h1 := hw w (by simp)
    refine ih _ ?_ (fun x hx => hw x (by simp [hx]))
    rw [length_splice _ _ _ (by omega)]; exact hb

theorem writeSectors33_eq : ∀ (ws : List WSector) (m : DImg), m.bytes.length = 143360 → m.maxSectors = 560 → Writable33 ws →
    DImg.writeSectors ws m = (.ok (), { m with bytes := writeAll33 m.bytes ws }) := by
  intro ws
  induction ws with
  | nil => intro m _ _ _; rfl
  | cons w ws ih =>
    intro m hb hmax hw
    have h1 := hw w (by simp)
    unfold DImg.writeSectors
    rw [if_neg (by rw [hmax]; omega)]
    have ha : assignSlice m.bytes (256 * w.num) (256 * w.num + 256) w.data = .ok (splice m.bytes (256 * w.num) w.data) := by
      unfold assignSlice
      simp only
      rw [if_pos (by omega)]
    rw [ha]
    simp only
    rw [ih { m with bytes := splice m.bytes (256 * w.num) w.data } (by
      show (splice m.bytes (256 * w.num) w.data).length = _
      rw [length_splice _ _ _ (by omega)]; exact hb) hmax (fun x hx => hw x (by simp [hx]))]
    rfl

theorem writeAll33_append : ∀ (ws ws' : List WSector) (b : Bytes), writeAll33 b (ws ++ ws') = writeAll33 (writeAll33 b ws) ws' := by
  intro ws
  induction ws with
  | nil => intro ws' b; rfl
  | cons w ws ih => intro ws' b; exact ih _ _

theorem sec33_writeAll_other : ∀ (ws : List WSector) (b : Bytes), b.length = 143360 → Writable33 ws →
    ∀ s, (∀ w ∈ ws, w.num ≠ s) → sec33 (writeAll33 b ws) s = sec33 b s := by
  intro ws
  induction ws with
  | nil => intro b _ _ s _; rfl
  | cons w ws ih =>
    intro b hb hw s hs
    have h1 := hw w (by simp)
    have hl : (splice b (256 * w.num) w.data).length = 143360 := by rw [length_splice _ _ _ (by omega)]; exact hb
    rw [writeAll33, ih _ hl (fun x hx => hw x (by simp [hx])) s (fun x hx => hs x (by simp [hx]))]
    exact sec33_splice_other hb h1.1 h1.2 (Ne.symm (hs w (by simp)))

theorem sec33_writeAll_mem : ∀ (ws : List WSector) (b : Bytes), b.length = 143360 → Writable33 ws → (ws.map (·.num)).Nodup →
    ∀ w ∈ ws, sec33 (writeAll33 b ws) w.num = w.data := by
  intro ws
  induction ws with
  | nil => intro b _ _ _ w hw; cases hw
  | cons w ws ih =>
    intro b hb hw hn x hx
    have h1 := hw w (by simp)
    have hl : (splice b (256 * w.num) w.data).length = 143360 := by rw [length_splice _ _ _ (by omega)]; exact hb
    rw [List.map_cons, List.nodup_cons] at hn
    have hw' : Writable33 ws := fun x hx => hw x (by simp [hx])
    rw [writeAll33]
    rcases List.mem_cons.mp hx with rfl | hx
    · rw [sec33_writeAll_other ws _ hl hw' _ (fun y hy h => hn.1 (by rw [← h]; exact List.mem_map_of_mem hy))]
      exact sec33_splice_same hb h1.1 h1.2
    · exact ih _ hl hw' hn.2 x hx

/-! ### track/sector pairs -/

theorem linkOf_congr {d d' : Bytes} (h1 : d.getD 1 0 = d'.getD 1 0) (h2 : d.getD 2 0 = d'.getD 2 0) : linkOf d = linkOf d' := by
  rw [linkOf, linkOf, h1, h2]

theorem secOfTS_ofNat {n : Nat} (h : n < 4096) : secOfTS (UInt8.ofNat (n / 16)) (UInt8.ofNat (n % 16)) = n := by
  rw [secOfTS, toNat_ofNat, toNat_ofNat]; omega

theorem getD_splice_lt {a v : Bytes} {i k : Nat} (h : i + v.length ≤ a.length) (hk : k < i) : (splice a i v).getD k 0 = a.getD k 0 := by
  rw [List.getD_eq_getElem?_getD, List.getD_eq_getElem?_getD, getElem?_splice _ _ _ _ h, if_pos hk]

theorem getD_splice_mid {a v : Bytes} {i k : Nat} (h : i + v.length ≤ a.length) (hk : k < v.length) :
    (splice a i v).getD (i + k) 0 = v.getD k 0 := by
  rw [List.getD_eq_getElem?_getD, List.getD_eq_getElem?_getD, getElem?_splice _ _ _ _ h, if_neg (by omega), if_pos (by omega)]
  congr 2; omega

theorem linkOf_setNext {d : Bytes} {n : Nat} (hd : d.length = 256) (hn : n < 4096) : linkOf (splice d 1 (tsBytes n)) = n := by
  have h1 := getD_splice_mid (a := d) (v := tsBytes n) (i := 1) (k := 0) (by rw [hd]; show 1 + 2 ≤ 256; omega) (by show _ < 2; omega)
  have h2 := getD_splice_mid (a := d) (v := tsBytes n) (i := 1) (k := 1) (by rw [hd]; show 1 + 2 ≤ 256; omega) (by show _ < 2; omega)
  rw [linkOf, h1, h2]
  exact secOfTS_ofNat hn

theorem drop_splice {d v : Bytes} {i k : Nat} (h : i + v.length ≤ k) (hk : k ≤ d.length) : (splice d i v).drop k = d.drop k := by
  refine List.ext_getElem? fun j => ?_
  rw [List.getElem?_drop, List.getElem?_drop, getElem?_splice _ _ _ _ (by omega), if_neg (by omega), if_neg (by omega)]

/-! ### VTOC -/

theorem reorder33_reorder (i : Nat) : reorder33 (reorder33 i) = i := by
  unfold reorder33; omega

theorem reorder33_lt {i : Nat} (h : i < 800) : reorder33 i < 800 := by
  unfold reorder33; omega

/-- rows of the bitmap with the first two bytes replaced -/
theorem flatMap_take2 : ∀ (rows ps : List Bytes), rows.length = ps.length → (∀ p ∈ ps, p.length = 2) →
    (List.zipWith (fun row p => p ++ row.drop 2) rows ps).flatMap (·.take 2) = ps.flatten := by
  intro rows
  induction rows with
  | nil => intro ps hl _; have : ps = [] := by simpa using hl.symm
           subst this; rfl
  | cons r rows ih =>
    intro ps hl hp
    match ps, hl with
    | p :: ps, hl =>
      rw [List.zipWith_cons_cons, List.flatMap_cons, ih ps (by simpa using hl) (fun x hx => hp x (by simp [hx]))]
      have := hp p (by simp)
      rw [List.take_append, this]
      simp [List.take_of_length_le (by omega : p.length ≤ 2)]

theorem zipWith_rows_len : ∀ (rows ps : List Bytes), rows.length = ps.length → (∀ p ∈ ps, p.length = 2) → (∀ r ∈ rows, r.length = 4) →
    ∀ x ∈ List.zipWith (fun row p => p ++ row.drop 2) rows ps, x.length = 4 := by
  intro rows
  induction rows with
  | nil => intro ps _ _ _ x hx; simp at hx
  | cons r rows ih =>
    intro ps hl hp hr x hx
    match ps, hl with
    | p :: ps, hl =>
      rw [List.zipWith_cons_cons] at hx
      rcases List.mem_cons.mp hx with rfl | hx
      · have h1 := hp p (by simp)
        have h2 := hr r (by simp)
        simp; omega
      · exact ih ps (by simpa using hl) (fun x hx => hp x (by simp [hx])) (fun x hx => hr x (by simp [hx])) x hx

theorem length_flatten_const {α} {k : Nat} : ∀ (ls : List (List α)), (∀ x ∈ ls, x.length = k) → ls.flatten.length = ls.length * k := by
  intro ls
  induction ls with
  | nil => simp
  | cons x ls ih =>
    intro h
    rw [List.flatten_cons, List.length_append, ih (fun y hy => h y (by simp [hy])), h x (by simp), List.length_cons, Nat.add_mul]
    omega

theorem vtocRows {v : Bytes} (hv : v.length = 256) : (chunks 4 (v.drop 0x38)).length = 50 ∧ ∀ r ∈ chunks 4 (v.drop 0x38), r.length = 4 := by
  refine ⟨by rw [length_chunks _ (by omega)]; simp [hv], ?_⟩
  exact mem_chunks_length_eq 4 (by omega) _ ⟨50, by simp [hv]⟩

theorem packedRows (f : Nat → Bool) : (chunks 2 (packbits ((List.range 800).map f))).length = 50 ∧
    ∀ r ∈ chunks 2 (packbits ((List.range 800).map f)), r.length = 2 := by
  have h : (packbits ((List.range 800).map f)).length = 100 := by rw [length_packbits]; simp
  refine ⟨by rw [length_chunks _ (by omega), h], ?_⟩
  exact mem_chunks_length_eq 2 (by omega) _ ⟨50, by omega⟩

theorem length_vtocStore33 {v : Bytes} (hv : v.length = 256) (map : List Bool) : (vtocStore33 v map).length = 256 := by
  obtain ⟨h1, h2⟩ := vtocRows hv
  obtain ⟨h3, h4⟩ := packedRows fun i => map.getD (reorder33 i) false
  unfold vtocStore33
  simp only
  rw [List.length_append, length_flatten_const _ (zipWith_rows_len _ _ (by rw [h1, h3]) h4 h2), List.length_zipWith, h1, h3,
    List.length_take, hv]
  rfl

/-- the header part of the VTOC is kept -/
theorem vtocStore33_head {v : Bytes} (hv : v.length = 256) (map : List Bool) {i : Nat} (hi : i < 0x38) :
    (vtocStore33 v map).getD i 0 = v.getD i 0 := by
  unfold vtocStore33
  simp only
  rw [List.getD_eq_getElem?_getD, List.getD_eq_getElem?_getD, List.getElem?_append_left (by rw [List.length_take]; omega),
    List.getElem?_take, if_pos hi]

theorem vtocStore33_rows {v : Bytes} (hv : v.length = 256) (map : List Bool) :
    chunks 4 ((vtocStore33 v map).drop 0x38) = List.zipWith (fun row p => p ++ row.drop 2) (chunks 4 (v.drop 0x38))
      (chunks 2 (packbits ((List.range 800).map fun i => map.getD (reorder33 i) false))) := by
  obtain ⟨h1, h2⟩ := vtocRows hv
  obtain ⟨h3, h4⟩ := packedRows fun i => map.getD (reorder33 i) false
  have e : (vtocStore33 v map).drop 0x38 = (List.zipWith (fun row p => p ++ row.drop 2) (chunks 4 (v.drop 0x38))
      (chunks 2 (packbits ((List.range 800).map fun i => map.getD (reorder33 i) false)))).flatten := by
    unfold vtocStore33
    simp only
    rw [List.drop_append, List.length_take, hv]
    rw [List.drop_eq_nil_of_le (by rw [List.length_take]; omega)]
    simp
  rw [e]
  have := chunks_flatten_append 4 (by omega) _ ([] : Bytes) (zipWith_rows_len _ _ (by rw [h1, h3]) h4 h2)
  rw [List.append_nil] at this
  rw [this, show chunks 4 ([] : Bytes) = [] from rfl, List.append_nil]

/-- storing a map and reading it again -/
theorem vtocMap33_store {v : Bytes} (hv : v.length = 256) (map : List Bool) :
    vtocMap33 (vtocStore33 v map) = (List.range 800).map (fun i => map.getD i false) ++ restMap33 := by
  obtain ⟨h1, h2⟩ := vtocRows hv
  obtain ⟨h3, h4⟩ := packedRows fun i => map.getD (reorder33 i) false
  unfold vtocMap33
  simp only
  rw [vtocStore33_rows hv, flatMap_take2 _ _ (by rw [h1, h3]) h4, chunks_flatten 2 (by omega),
    unpackbits_packbits _ ⟨100, by simp⟩]
  apply congrArg (· ++ restMap33)
  refine List.map_congr_left fun i hi => ?_
  have hi' : i < 800 := List.mem_range.mp hi
  rw [List.getD_eq_getElem?_getD, List.getElem?_map, List.getElem?_range (reorder33_lt hi')]
  simp only [Option.map_some, Option.getD_some]
  rw [reorder33_reorder]

theorem length_vtocMap33 (v : Bytes) : (vtocMap33 v).length = 1280 := by
  unfold vtocMap33 restMap33
  rw [List.length_append, List.length_map, List.length_range, List.length_replicate]

/-- storing twice is storing once -/
theorem zipWith_twice : ∀ (rows ps qs : List Bytes), (∀ p ∈ ps, p.length = 2) → rows.length = ps.length →
    List.zipWith (fun row p => p ++ row.drop 2) (List.zipWith (fun row p => p ++ row.drop 2) rows ps) qs =
    List.zipWith (fun row p => p ++ row.drop 2) rows qs := by
  intro rows
  induction rows with
  | nil => intro ps qs _ _; simp
  | cons r rows ih =>
    intro ps qs hp hl
    match ps, hl with
    | p :: ps, hl =>
      cases qs with
      | nil => simp
      | cons q qs =>
        simp only [List.zipWith_cons_cons]
        rw [ih ps qs (fun x hx => hp x (by simp [hx])) (by simpa using hl)]
        congr 2
        rw [List.drop_append, hp p (by simp)]
        simp [List.drop_eq_nil_of_le (by rw [hp p (by simp)]; omega : p.length ≤ 2)]

theorem vtocStore33_twice {v : Bytes} (hv : v.length = 256) (m1 m2 : List Bool) :
    vtocStore33 (vtocStore33 v m1) m2 = vtocStore33 v m2 := by
  obtain ⟨h1, h2⟩ := vtocRows hv
  obtain ⟨h3, h4⟩ := packedRows fun i => m1.getD (reorder33 i) false
  have hr := vtocStore33_rows hv m1
  have ht : (vtocStore33 v m1).take 0x38 = v.take 0x38 := by
    unfold vtocStore33
    simp only
    rw [List.take_append, List.length_take, hv, List.take_take]
    simp
  rw [vtocStore33, hr, ht, zipWith_twice _ _ _ h4 (by rw [h1, h3])]
  rfl

/-- storing the map that was read changes nothing -/
theorem vtocStore33_self {v : Bytes} (hv : v.length = 256) : vtocStore33 v (vtocMap33 v) = v := by
  obtain ⟨h1, h2⟩ := vtocRows hv
  have hu : ((chunks 4 (v.drop 0x38)).flatMap (·.take 2)).length = 100 := by
    have : ∀ rows : List Bytes, (∀ r ∈ rows, r.length = 4) → (rows.flatMap (·.take 2)).length = 2 * rows.length := by
      intro rows
      induction rows with
      | nil => simp
      | cons r rows ih =>
        intro h
        rw [List.flatMap_cons, List.length_append, ih (fun x hx => h x (by simp [hx])), List.length_take, h r (by simp)]
        simp; omega
    rw [this _ h2, h1]
  have hbits : (unpackbits ((chunks 4 (v.drop 0x38)).flatMap (·.take 2))).length = 800 := by rw [length_unpackbits, hu]
  have hm : (List.range 800).map (fun i => (vtocMap33 v).getD (reorder33 i) false) =
      unpackbits ((chunks 4 (v.drop 0x38)).flatMap (·.take 2)) := by
    refine List.ext_getElem? fun i => ?_
    by_cases hi : i < 800
    · rw [List.getElem?_map, List.getElem?_range hi]
      simp only [Option.map_some, vtocMap33]
      have hr := reorder33_lt hi
      rw [List.getD_eq_getElem?_getD, List.getElem?_append_left (by simpa using hr), List.getElem?_map, List.getElem?_range hr]
      simp only [Option.map_some, Option.getD_some]
      rw [reorder33_reorder, List.getD_eq_getElem?_getD, List.getElem?_eq_getElem (by omega)]
      rfl
    · rw [List.getElem?_eq_none (by simp; omega), List.getElem?_eq_none (by omega)]
  unfold vtocStore33
  simp only
  rw [hm, packbits_unpackbits]
  have hz : ∀ rows : List Bytes, (∀ r ∈ rows, r.length = 4) →
      List.zipWith (fun row p => p ++ row.drop 2) rows (chunks 2 (rows.flatMap (·.take 2))) = rows := by
    intro rows
    induction rows with
    | nil => intro _; rfl
    | cons r rows ih =>
      intro h
      have hr := h r (by simp)
      rw [List.flatMap_cons, chunks_append 2 (by omega) _ _ (by rw [List.length_take, hr]; rfl), List.zipWith_cons_cons,
        ih (fun x hx => h x (by simp [hx])), List.take_append_drop]
  rw [hz _ h2, chunks_flatten 4 (by omega), List.take_append_drop]

/-! ### directory entries -/

/-- what is read back from an encoded entry -/
def DDirent.reread (i : Nat) (d : DDirent) : DDirent :=
  let d' : DDirent :=
    { fileNum := i, deleted := d.deleted, track := d.track, sector := d.sector
      ftype := if d.deleted then 127 else d.ftype
      locked := d.deleted
      filename := rstripWs (d.filename.take 29), numSectors := d.numSectors % 65536 }
  { d' with isSane := d'.sanityCheck 560 }

/-- entries that `encode` accepts and that are not mistaken for something else -/
structure DDirent.Encodable (d : DDirent) : Prop where
  ascii : ∀ c ∈ d.filename, c < 0x80
  short : d.filename.length ≤ 30
  type : d.ftype < 128
  track : d.deleted = false → d.track ≠ 0xff

theorem or80_sub80 (c : UInt8) (h : c < 0x80) : (c ||| 0x80) - 0x80 = c := by
  have : ∀ n, n < 256 → UInt8.ofNat n < 0x80 → (UInt8.ofNat n ||| 0x80) - 0x80 = UInt8.ofNat n := by decide +kernel
  exact UInt8.forall_ofNat (P := fun c => c < 0x80 → (c ||| 0x80) - 0x80 = c) this c h

theorem encode33_ok {d : DDirent} (h : d.Encodable) : ∃ e, d.encode = .ok e ∧ e.length = 35 ∧
    e = [if d.deleted then 0xff else d.track, d.sector, UInt8.ofNat d.flag] ++
      (if d.deleted then (d.filename.map (· ||| 0x80) ++ List.replicate (30 - d.filename.length) 0xa0).set 29 d.track
        else d.filename.map (· ||| 0x80) ++ List.replicate (30 - d.filename.length) 0xa0) ++ enc16 d.numSectors := by
  have h1 := h.ascii
  have h2 := h.short
  unfold DDirent.encode
  rw [if_neg (by simpa using h1), if_neg (by omega)]
  refine ⟨_, rfl, ?_, rfl⟩
  cases d.deleted <;> simp [enc16] <;> omega

theorem flag_toNat {d : DDirent} (h : d.ftype < 128) : (UInt8.ofNat d.flag).toNat = if d.deleted then 255 else d.ftype := by
  rw [toNat_ofNat, DDirent.flag]
  cases d.deleted with
  | true => rfl
  | false =>
    cases d.locked with
    | true =>
      have : ∀ n, n < 128 → (n ||| 0x4000) % 256 = n := by decide +kernel
      simpa using this d.ftype h
    | false => simp; omega

theorem parse33_encode {d : DDirent} (h : d.Encodable) {e : Bytes} (he : d.encode = .ok e) (i : Nat) :
    DDirent.parse 560 i e = d.reread i := by
  obtain ⟨e', he', hlen, hval⟩ := encode33_ok h
  rw [he] at he'
  injection he' with he'
  subst he'
  generalize hname : (if d.deleted then (d.filename.map (· ||| 0x80) ++ List.replicate (30 - d.filename.length) 0xa0).set 29 d.track
        else d.filename.map (· ||| 0x80) ++ List.replicate (30 - d.filename.length) 0xa0) = nm at hval
  have hnl : nm.length = 30 := by
    have := h.short
    rw [← hname]; cases d.deleted <;> simp <;> omega
  have g0 : e.getD 0 0 = if d.deleted then 0xff else d.track := by rw [hval]; rfl
  have g1 : e.getD 1 0 = d.sector := by rw [hval]; rfl
  have g2 : e.getD 2 0 = UInt8.ofNat d.flag := by rw [hval]; rfl
  have g32 : d.deleted = true → e.getD 0x20 0 = d.track := by
    intro hd
    rw [hval, List.getD_eq_getElem?_getD, List.append_assoc, List.getElem?_append_right (by simp)]
    rw [List.getElem?_append_left (by simp [hnl])]
    rw [← hname, hd]
    simp only [if_true, List.length_cons, List.length_nil]
    rw [List.getElem?_set]
    have := h.short
    rw [if_pos (by rfl), if_pos (by simp; omega)]
    rfl
  have g33 : e.getD 33 0 = UInt8.ofNat d.numSectors := by
    rw [hval, List.getD_eq_getElem?_getD, List.getElem?_append_right (by simp [hnl])]
    simp [hnl, enc16]
  have g34 : e.getD 34 0 = UInt8.ofNat (d.numSectors / 256) := by
    rw [hval, List.getD_eq_getElem?_getD, List.getElem?_append_right (by simp [hnl])]
    simp [hnl, enc16]
  have hpn : parseName33 e = rstripWs (d.filename.take 29) := by
    have hs : slice e 3 0x20 = nm.take 29 := by
      rw [hval]
      refine List.ext_getElem? fun j => ?_
      rw [getElem?_slice, List.getElem?_take]
      by_cases hj : j < 29
      · rw [if_pos (by omega), if_pos hj, List.append_assoc, List.getElem?_append_right (by simp), List.getElem?_append_left (by simp [hnl]; omega)]
        congr 1; simp
      · rw [if_neg (by omega), if_neg hj]
    have ht : nm.take 29 = (d.filename.map (· ||| 0x80) ++ List.replicate (30 - d.filename.length) 0xa0).take 29 := by
      rw [← hname]
      cases d.deleted with
      | false => rfl
      | true => simp only [if_true]; rw [List.take_set_of_le (by omega)]
    have hm : (nm.take 29).map (· - 0x80) = d.filename.take 29 ++ List.replicate (29 - (d.filename.take 29).length) 32 := by
      rw [ht, List.take_append, List.map_append, ← List.map_take, List.map_map]
      congr 1
      · conv => rhs; rw [← List.map_id (d.filename.take 29)]
        refine List.map_congr_left fun c hc => ?_
        exact or80_sub80 c (h.ascii c (List.mem_of_mem_take hc))
      · rw [List.take_replicate, List.map_replicate, List.length_map, List.length_take]
        congr 1
        omega
    unfold parseName33
    rw [hs, hm, rstripWs_spaces]
    rw [List.filter_eq_self]
    intro c hc
    simpa using h.ascii c (List.mem_of_mem_take (mem_rstripWs hc))
  have hft := flag_toNat h.type
  unfold DDirent.parse DDirent.reread
  simp only
  rw [g0, g1, g2, g33, g34, hpn, hft, le16_enc]
  have htype := h.type
  cases hd : d.deleted with
  | true =>
    rw [g32 hd]
    simp
  | false =>
    have := h.track hd
    have e1 : (d.track == 0xff) = false := by simpa using this
    have e2 : decide (128 ≤ d.ftype) = false := by simpa using htype
    simp [e1, e2, Nat.mod_eq_of_lt htype]

theorem parse33_flag (i : Nat) (e : Bytes) : (DDirent.parse 560 i e).flag =
    if e.getD 0 0 = 0xff then 0xff else (e.getD 2 0).toNat % 128 ||| (if 128 ≤ (e.getD 2 0).toNat then 0x4000 else 0) := by
  unfold DDirent.parse DDirent.flag
  simp

theorem parse33_flag_zero (i : Nat) (e : Bytes) : (DDirent.parse 560 i e).flag = 0 ↔ e.getD 0 0 ≠ 0xff ∧ e.getD 2 0 = 0 := by
  rw [parse33_flag]
  by_cases h0 : e.getD 0 0 = 0xff
  · rw [if_pos h0]
    exact ⟨fun h => absurd h (by decide), fun h => absurd h0 h.1⟩
  · rw [if_neg h0]
    have : ∀ n, n < 256 → (((UInt8.ofNat n).toNat % 128 ||| (if 128 ≤ (UInt8.ofNat n).toNat then 0x4000 else 0)) = 0 ↔
      UInt8.ofNat n = 0) := by decide +kernel
    rw [UInt8.forall_ofNat (P := fun c => ((c.toNat % 128 ||| (if 128 ≤ c.toNat then 0x4000 else 0)) = 0 ↔ c = 0)) this
      (e.getD 2 0)]
    exact ⟨fun h => ⟨h0, h⟩, fun h => h.2⟩

theorem reread_flag_ne {d : DDirent} (i : Nat) (h : d.deleted = false → d.ftype ≠ 0) : (d.reread i).flag ≠ 0 := by
  unfold DDirent.reread DDirent.flag
  cases hd : d.deleted with
  | true => simp
  | false => simpa using h hd

/-- parsed entries can be encoded -/
theorem encodable_parse (i : Nat) (e : Bytes) : (DDirent.parse 560 i e).Encodable ∧ (DDirent.parse 560 i e).filename.length ≤ 29 ∧
    (DDirent.parse 560 i e).numSectors < 65536 ∧ (DDirent.parse 560 i e).fileNum = i ∧
    (DDirent.parse 560 i e).isSane = (DDirent.parse 560 i e).sanityCheck 560 := by
  have hl : (parseName33 e).length ≤ 29 := by
    unfold parseName33
    refine Nat.le_trans (List.length_filter_le _ _) (Nat.le_trans (length_rstripWs _) ?_)
    rw [List.length_map, length_slice]; omega
  refine ⟨⟨?_, ?_, ?_, ?_⟩, hl, le16_lt _ _, rfl, rfl⟩
  · intro c hc
    have hc : c ∈ parseName33 e := hc
    unfold parseName33 at hc
    simpa using (List.mem_filter.mp hc).2
  · exact Nat.le_trans hl (by omega)
  · exact Nat.mod_lt _ (by omega)
  · intro hd
    have hd : (e.getD 0 0 == 0xff) = false := hd
    show (if e.getD 0 0 == 0xff then e.getD 0x20 0 else e.getD 0 0) ≠ 0xff
    rw [hd]
    simpa using hd

end Atr
