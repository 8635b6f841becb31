import Verif.Spec.BLoad
import Verif.Props.AtariNames
import Verif.Props.Assemble
import Verif.Props.KBootRun
/-!
# C117: assembled programs under Atari DOS
-/
namespace Atr

/-! ### what is loaded is determined by the disk -/

theorem DosOpens.unique {l : List Bytes} {x e e' : Bytes} {i i' : Nat} (h : DosOpens l x i e) (h' : DosOpens l x i' e') : i = i' ∧ e = e' := by
  obtain ⟨h1, h2, h3, h4⟩ := h
  obtain ⟨k1, k2, k3, k4⟩ := h'
  have hi : i = i' := by
    rcases Nat.lt_trichotomy i i' with hlt | heq | hlt
    · exact absurd ⟨h2, h3⟩ (k4 i e hlt h1).2
    · exact heq
    · exact absurd ⟨k2, k3⟩ (h4 i' e' hlt k1).2
  subst hi
  rw [h1] at k1
  injection k1 with k1
  exact ⟨rfl, k1⟩

theorem DosReads.unique {h : AHeader} {b : Bytes} {num s : Nat} {x y : Bytes} (hx : DosReads h b num s x) (hy : DosReads h b num s y) : x = y := by
  induction hx generalizing y with
  | done =>
    cases hy with
    | done => rfl
    | sector hs => exact absurd rfl hs
  | sector hs _ _ _ ih =>
    cases hy with
    | done => exact absurd rfl hs
    | sector _ _ _ next => rw [ih next]

theorem BinLoads.unique {init : Nat → (Nat → UInt8) → (Nat → UInt8) → Prop} (hf : ∀ a m m1 m2, init a m m1 → init a m m2 → m1 = m2) {back : Nat}
    {x : Bytes} {m m1 m2 : Nat → UInt8} (h1 : BinLoads init back x m m1) (h2 : BinLoads init back x m m2) : m1 = m2 := by
  induction h1 generalizing m2 with
  | done m => cases h2; rfl
  | marker _ ih =>
    generalize hz : (0xff :: 0xff :: _ : Bytes) = z at h2
    cases h2 with
    | done => cases hz
    | marker h2 =>
      injection hz with _ hz
      injection hz with _ hz
      subst hz
      exact ih h2
    | segment hs =>
      injection hz with z1 hz
      injection hz with z2 hz
      subst z1 z2
      exact absurd rfl hs
  | @segment s0 s1 e0 e1 d x m n1 m' hs hd he ha h ih =>
    generalize hz : s0 :: s1 :: e0 :: e1 :: (d ++ x) = z at h2
    cases h2 with
    | done => cases hz
    | marker h2 =>
      injection hz with z1 hz
      injection hz with z2 hz
      subst z1 z2
      exact absurd rfl hs
    | @segment t0 t1 f0 f1 d2 x2 _ n2 _ ks kd ke ka k =>
      injection hz with z1 hz
      injection hz with z2 hz
      injection hz with z3 hz
      injection hz with z4 hz
      subst z1 z2 z3 z4
      obtain ⟨q1, q2⟩ := List.append_inj hz (by omega)
      subst q1 q2
      have : n1 = n2 := by
        rcases ha with ⟨a1, a2⟩ | ⟨a1, m3, a2, a3⟩ <;> rcases ka with ⟨b1, b2⟩ | ⟨b1, m4, b2, b3⟩
        · rw [a2, b2]
        · exact absurd a1 b1
        · exact absurd b1 a1
        · rw [a3, b3, hf _ _ _ _ a2 b2]
      subst this
      exact ih k

/-- **C117**: memory and start address after the load are determined -/
theorem C117_unique {h : AHeader} {b x : Bytes} {init : Nat → (Nat → UInt8) → (Nat → UInt8) → Prop} (hf : ∀ a m m1 m2, init a m m1 → init a m m2 → m1 = m2)
    {back : Nat} {m m1 m2 : Nat → UInt8} {p1 p2 : Nat} (h1 : BLoads h b x init back m m1 p1) (h2 : BLoads h b x init back m m2 p2) : m1 = m2 ∧ p1 = p2 := by
  obtain ⟨i, e, d, o1, r1, l1, c1⟩ := h1
  obtain ⟨i', e', d', o2, r2, l2, c2⟩ := h2
  obtain ⟨q1, q2⟩ := o1.unique o2
  subst q1 q2
  have := r1.unique r2
  injection this with _ this
  injection this with _ this
  subst this
  have := l1.unique hf l2
  subst this
  exact ⟨rfl, by rw [c1, c2]⟩

/-! ### the bytes of an added file -/

theorem reads_loop {d : ADirent} {h : AHeader} {b : Bytes} {n : Nat} (g : h.Geom n) (hm : d.mydos = false) (hss : 3 ≤ h.sectorSize) : ∀ (fuel : Nat) (st : ReadSt) (l : List (Nat × Nat × Nat)),
    d.readLoop h b fuel st = .ok l → (∀ x ∈ l, h.DataSec x.1 ∧ x.2.2 + 3 ≤ h.sectorSize ∧ x.1 ≠ 0 ∧ (sec h b x.1).length = h.sectorSize) →
    DosReads h b d.fileNum st.cur (chainBytes h b l) := by
  intro fuel
  induction fuel with
  | zero => intro st l hl; cases hl
  | succ fuel ih =>
    intro st l hl hd
    unfold ADirent.readLoop at hl
    have key : ∀ st' last pos k, d.readSector h b st = .ok (st', last, pos, k) → h.DataSec st.cur → (sec h b st.cur).length = h.sectorSize →
        sectorByte h b st.cur (h.sectorSize - 3) / 4 = d.fileNum ∧ k = sectorByte h b st.cur (h.sectorSize - 1) ∧
        st'.cur = sectorByte h b st.cur (h.sectorSize - 3) % 4 * 256 + sectorByte h b st.cur (h.sectorSize - 2) ∧ last = (st'.cur == 0) := by
      intro st' last pos k hr hds hsl
      unfold ADirent.readSector at hr
      rw [getRawBytes_data g hds] at hr
      simp only at hr
      unfold ADirent.processRaw at hr
      rw [if_neg (by omega), hm, hsl] at hr
      simp only [Bool.false_eq_true, if_false] at hr
      unfold sectorByte
      by_cases hq : ((sec h b st.cur).getD (h.sectorSize - 3) 0).toNat / 4 = d.fileNum
      · rw [if_neg (by simpa using hq)] at hr
        split at hr
        · cases hr
        · rename_i heq
          split at heq
          · cases heq
          · injection heq with heq
            injection heq with q1 q2
            injection hr with hr
            injection hr with r1 r2
            injection r2 with r2 r3
            injection r3 with r3 r4
            subst r1
            subst q1
            exact ⟨hq, by rw [← r4, ← q2], rfl, r2.symm⟩
      · rw [if_pos hq] at hr
        cases hr
    cases hr : d.readSector h b st with
    | error e => rw [hr] at hl; cases hl
    | ok r =>
      obtain ⟨st', last, pos, k⟩ := r
      rw [hr] at hl
      simp only at hl
      cases hlast : last with
      | true =>
        rw [hlast, if_pos rfl] at hl
        injection hl with hl
        subst hl
        obtain ⟨d1, d2, d3, d4⟩ := hd _ List.mem_cons_self
        obtain ⟨k1, k2, k3, k4⟩ := key _ _ _ _ hr d1 d4
        have h0 : st'.cur = 0 := by
          rw [hlast] at k4
          exact eq_of_beq k4.symm
        have := DosReads.sector (h := h) (b := b) (num := d.fileNum) (s := st.cur) (x := []) d3 k1 (by rw [← k2]; exact d2)
          (by rw [← k3, h0]; exact .done)
        rw [← k2] at this
        simpa [chainBytes] using this
      | false =>
        rw [hlast, if_neg (by decide)] at hl
        cases hrest : d.readLoop h b fuel st' with
        | error e => rw [hrest] at hl; cases hl
        | ok rest =>
          rw [hrest] at hl
          injection hl with hl
          subst hl
          obtain ⟨d1, d2, d3, d4⟩ := hd _ List.mem_cons_self
          obtain ⟨k1, k2, k3, k4⟩ := key _ _ _ _ hr d1 d4
          have hi := ih st' rest hrest (fun x hx => hd x (List.mem_cons_of_mem _ hx))
          rw [k3] at hi
          have := DosReads.sector (h := h) (b := b) (num := d.fileNum) (s := st.cur) d3 k1 (by rw [← k2]; exact d2) hi
          rw [← k2] at this
          exact this

theorem encS_full {n : Nat} {x y : Bytes} (h0 : (0 : UInt8) ∉ y) (h : encS n x = y) (hx : x.length ≤ n) : x = y := by
  unfold encS at h
  rw [List.take_of_length_le hx] at h
  by_cases he : x.length = n
  · rw [he, Nat.sub_self, List.replicate_zero, List.append_nil] at h
    exact h
  · exact absurd (by rw [← h]; exact List.mem_append_right _ (List.mem_replicate.mpr ⟨by omega, rfl⟩)) h0

/-- the entries before the new one have other names -/
theorem other_name {h : AHeader} {b : Bytes} {ds : List ADirent} (c : Consistent h b ds) {e : ADirent} (he : e ∈ ds) {name : Bytes} (hc : Canon83 name)
    (hn : slice e.encode 5 16 = dosName (name.takeWhile (· != 0x2e)) ((name.dropWhile (· != 0x2e)).drop 1)) : e.filename = name := by
  obtain ⟨c1, c2, c3⟩ := canon_parts hc.1
  have hsplit : name = name.takeWhile (· != 0x2e) ++ name.dropWhile (· != 0x2e) := (List.takeWhile_append_dropWhile).symm
  have h0B : (0 : UInt8) ∉ name.takeWhile (· != 0x2e) := fun hx => hc.2 (by rw [hsplit]; exact List.mem_append_left _ hx)
  have h0E : (0 : UInt8) ∉ (name.dropWhile (· != 0x2e)).drop 1 :=
    fun hx => hc.2 (by rw [hsplit]; exact List.mem_append_right _ (List.mem_of_mem_drop hx))
  have hdot : ∀ E, (name.dropWhile (· != 0x2e)).drop 1 = E → E ≠ [] → name.dropWhile (· != 0x2e) = 0x2e :: E := by
    intro E hE hne
    cases hd : name.dropWhile (· != 0x2e) with
    | nil => rw [hd] at hE; exact absurd hE.symm hne
    | cons a l =>
      rw [hd] at hE
      have ha : (a != 0x2e) = false := by
        have := List.head?_dropWhile_not (p := fun x : UInt8 => x != 0x2e) (l := name)
        rw [hd] at this
        simpa using this
      have : a = 0x2e := by simpa using ha
      rw [this]
      exact congrArg _ hE
  generalize hB : name.takeWhile (· != 0x2e) = B at *
  generalize hE : (name.dropWhile (· != 0x2e)).drop 1 = E at *
  have old := old_entry c he
  obtain ⟨o1, o2, _⟩ := old_names c he
  rw [encode_name] at hn
  have h8 : B.length = 8 ∧ E.length = 3 := by
    apply Classical.byContradiction
    intro hx
    rcases dosName_short c1 c2 (by omega) with h | h
    · rw [← hn] at h; exact old.1 h
    · rw [← hn] at h; exact old.2 h
  obtain ⟨n1, n2⟩ := name_parts (base := B) (ext := E) c1
  rw [← hn, List.take_left' (length_encS _ _), h8.1] at n1
  rw [← hn, List.drop_left' (length_encS _ _), h8.2] at n2
  simp only [Nat.sub_self, List.replicate_zero, List.append_nil] at n1 n2
  have f1 := encS_full h0B n1 o1
  have f2 := encS_full h0E n2 o2
  have hne : E ≠ [] := fun hx => by rw [hx] at h8; cases h8.2
  unfold ADirent.filename
  rw [f1, f2, hsplit, hdot E rfl hne]
  simp [hne]

/-- Atari DOS finds and reads a file that was added under a name without an extension or with one of three characters. -/
theorem bload_file {m m' : AImg} {ds} {name data : Bytes} (hm : Mounted m ds) (hc : Canon83 name) (hnew : name ∉ m.names)
    (hslot : m.files.length < 64) (hne : data ≠ []) (hw : AImg.writeFile name data m = (.ok (), m'))
    (hext : (name.dropWhile (· != 0x2e)).drop 1 = [] ∨ ((name.dropWhile (· != 0x2e)).drop 1).length = 3) :
    ∃ i e, DosOpens (rawEntries m'.hdr m'.bytes) (dosName (name.takeWhile (· != 0x2e)) ((name.dropWhile (· != 0x2e)).drop 1)) i e ∧
      DosReads m'.hdr m'.bytes i (word (e.getD 3 0) (e.getD 4 0)) data := by
  by_cases hk : (pieces m.hdr data).length ≤ (freePool m.hdr m.bytes).length
  · have hfr : ∀ d ∈ ds, d.inUse = true → d.filename ≠ norm83 name := by
      intro d hd hu hn
      refine hnew (List.mem_map.mpr ⟨d, ?_, hn.trans hc.1⟩)
      rw [hm.eq]; exact mem_files.mpr ⟨hd, hu⟩
    rw [hm.eq] at hslot
    obtain ⟨b', order, map', e, w, nf, c', hw', _⟩ := writeFile_ok hm.2 hne hc.2 (free_slot hslot) hfr hk
    rw [← hm.eq, hw] at hw'
    injection hw' with _ hw'
    subst hw'
    obtain ⟨k1, _, k3⟩ := getFreeDirent_spec ds
    have hidx := free_slot hslot
    have g := hm.2.geom
    have g' : m.hdr.Geom b'.length := by rw [w.comm.len]; exact g
    obtain ⟨und, uall⟩ := w.res.user hm.2.toLoose
    obtain ⟨p1, p2, p3⟩ := pieces_props m.hdr data hm.2.sectorSize hne
    have hlen : (pieces m.hdr data).length = order.length := w.res.len.symm
    have hone : order ≠ [] := by
      intro he; rw [he] at hlen; exact p3 (List.length_eq_zero_iff.mp hlen)
    have hcount : order.length ≤ m.hdr.maxSectors := nodup_bound und (fun x hx => ⟨(uall x hx).1.1, (uall x hx).1.2.1⟩)
    have hf : order.headD 0 < 720 := by
      cases order with
      | nil => exact absurd rfl hone
      | cons n ns => exact (uall n (by simp)).2.1
    have ln := linkSectors_nums hm.2.sectorSize hidx (pieces m.hdr data) order w.res.len.symm (fun x hx => (p1 x hx).2)
      (fun n hn => by have := (uall n hn).2.1; omega)
    obtain ⟨rest, r1, r2⟩ := entries_after hm.2 w.comm
      (by
        rw [length_setDirent k1]
        have := hm.2.dirLen
        have := hm.2.sectorSize
        omega)
      (by rw [length_setDirent k1]; omega)
      (by
        intro x hx
        have : x.num ∈ order := by rw [← ln.1]; exact List.mem_map_of_mem hx
        exact (uall _ this).1)
    obtain ⟨l1, l2⟩ := readLoop_linked (d := newEntry name (getFreeDirent ds) (pieces m.hdr data).length (order.headD 0))
      rfl hidx g' hm.2.sectorSize (pieces m.hdr data) order [] (m.hdr.maxSectors + 1) hlen (fun x hx => (p1 x hx).2)
      (fun n hn => ⟨by have := (uall n hn).2.1; omega, by have := (uall n hn).1.1; omega, (uall n hn).1.data g⟩) und
      (by simp) (by simp) (by omega) hone (fun x hx => w.comm.file x hx)
    have hss := hm.2.sectorSize
    have hr := reads_loop g' rfl (by omega) _ _ _ l1 (by
      intro x hx
      obtain ⟨y, hy, rfl⟩ := List.mem_map.mp hx
      have hy1 := (List.of_mem_zip hy).1
      have := (p1 y.2 (List.of_mem_zip hy).2).2
      refine ⟨(uall _ hy1).1.data g, by simp only; omega, by have := (uall _ hy1).1.1; simp only; omega, length_sec g' ((uall _ hy1).1.data g)⟩)
    have hcb : chainBytes m.hdr b' ((order.zip (pieces m.hdr data)).map fun x => (x.1, m.hdr.dpos x.1, x.2.length)) = data := by
      unfold chainBytes
      rw [List.flatMap_map]
      rw [flatMap_zip_snd (fun n (q : Bytes) => (sec m.hdr b' n).take q.length) id _ _ hlen.symm (fun x hx => l2 x hx)]
      rw [List.flatMap_id, p2]
    rw [hcb] at hr
    obtain ⟨c1, c2, c3⟩ := canon_parts hc.1
    obtain ⟨f1, f2⟩ := new_field name (getFreeDirent ds) (pieces m.hdr data).length (order.headD 0)
    rw [List.take_of_length_le c1] at f1
    refine ⟨getFreeDirent ds, (rawEntry name (getFreeDirent ds) (pieces m.hdr data).length (order.headD 0)).encode, ⟨?_, ?_, ?_, ?_⟩, ?_⟩
    · show (rawEntries m.hdr b')[getFreeDirent ds]? = _
      rw [r1, List.getElem?_append_left (by rw [List.length_map, length_setDirent k1]; omega), List.getElem?_map, getElem?_setDirent k1,
        if_pos rfl]
      rfl
    · rw [encode_flag6]
      rfl
    · rw [encode_name, f1, f2]
      unfold dosName padRight
      congr 1
      rcases hext with h | h
      · rw [c3.mp h, h]; rfl
      · have hdot : name.contains 0x2e = true := by
          cases hx : name.contains 0x2e with
          | true => rfl
          | false => rw [c3.mpr hx] at h; cases h
        rw [hdot, if_pos rfl]
        unfold encS
        rw [List.take_of_length_le (by omega), h]
        rfl
    · intro j f hj hf
      have hf : (rawEntries m.hdr b')[j]? = some f := hf
      rw [r1, List.getElem?_append_left (by rw [List.length_map, length_setDirent k1]; omega), List.getElem?_map, getElem?_setDirent k1,
        if_neg (by omega), List.getElem?_eq_getElem (show j < ds.length by omega)] at hf
      injection hf with hf
      have hmem : ds[j] ∈ ds := List.getElem_mem _
      have hu := k3 j ds[j] hj (List.getElem?_eq_getElem (by omega))
      refine ⟨?_, ?_⟩
      · intro hz
        rw [← encode_flag6, hf, List.getD_eq_getElem?_getD, ← List.head?_eq_getElem?, hz] at hu
        cases hu
      · rintro ⟨_, hx⟩
        rw [← hf] at hx
        exact hfr _ hmem hu ((other_name hm.2 hmem hc hx).trans hc.1.symm)
    · have e3 : word (((rawEntry name (getFreeDirent ds) (pieces m.hdr data).length (order.headD 0)).encode).getD 3 0)
          (((rawEntry name (getFreeDirent ds) (pieces m.hdr data).length (order.headD 0)).encode).getD 4 0) = order.headD 0 := by
        have hst : ((rawEntry name (getFreeDirent ds) (pieces m.hdr data).length (order.headD 0)).startingSector % 65536).toNat = order.headD 0 := by
          show (((order.headD 0 : Nat) : Int) % 65536).toNat = _
          omega
        unfold ADirent.encode
        rw [hst]
        show word (UInt8.ofNat (order.headD 0)) (UInt8.ofNat (order.headD 0 / 256)) = _
        unfold word
        rw [toNat_ofNat, toNat_ofNat]
        omega
      rw [e3]
      exact hr
  · rw [mounted_full hm (by omega)] at hw
    injection hw with hw _; cases hw

/-! ### the segments -/

theorem bin_pieces {init : Nat → (Nat → UInt8) → (Nat → UInt8) → Prop} {back : Nat} : ∀ {l : List Seg} {m m' : Nat → UInt8}, (∀ s ∈ l, s.Wf) →
    SegLoads init back l m m' → BinLoads init back (l.flatMap xexPiece) m m' := by
  intro l
  induction l with
  | nil => intro m m' _ h; cases h; exact .done m
  | cons s l ih =>
    intro m m' hw h
    cases h with
    | cons ha h =>
      obtain ⟨h1, h2, h3⟩ := hw s List.mem_cons_self
      have hpos := List.length_pos_iff.mpr h1
      have e1 : word (UInt8.ofNat s.origin) (UInt8.ofNat (s.origin / 256)) = s.origin := by
        unfold word; rw [toNat_ofNat, toNat_ofNat]; omega
      have e2 : word (UInt8.ofNat (s.origin + s.data.length + 65535)) (UInt8.ofNat ((s.origin + s.data.length + 65535) / 256)) =
          s.origin + s.data.length - 1 := by
        unfold word; rw [toNat_ofNat, toNat_ofNat]; omega
      have := BinLoads.segment (init := init) (back := back) (s0 := UInt8.ofNat s.origin) (s1 := UInt8.ofNat (s.origin / 256))
        (e0 := UInt8.ofNat (s.origin + s.data.length + 65535)) (e1 := UInt8.ofNat ((s.origin + s.data.length + 65535) / 256))
        (d := s.data) (by rw [e1]; exact h3) h1 (by rw [e1, e2]; omega) (by rw [e1]; exact ha) (ih (fun t ht => hw t (List.mem_cons_of_mem _ ht)) h)
      exact this

/-- an executable is a marker and the segments -/
theorem xex_bytes {segs : List Seg} {run : Option Nat} {x : Bytes} (hx : getXex segs run = .ok x) :
    x = 0xff :: 0xff :: (expectedSegs segs run).flatMap xexPiece := by
  have hseg : xexSegments segs run = .ok (expectedSegs segs run) := by
    unfold getXex at hx
    cases hl : xexSegments segs run with
    | error e => rw [hl] at hx; cases hx
    | ok l =>
      clear hx
      congr 1
      unfold xexSegments at hl
      unfold expectedSegs
      by_cases h : ∃ s ∈ segs, s.origin = 0x2e0
      · rw [if_pos (by simpa using h)] at hl
        rw [if_pos h]
        injection hl with hl
        exact hl.symm
      · rw [if_neg (by simpa using h)] at hl
        rw [if_neg h]
        unfold runValue
        split at hl
        · split at hl
          · injection hl with hl; rw [← hl]
          · cases hl
        · rename_i hn
          cases segs with
          | nil => cases hl
          | cons s segs =>
            injection hl with hl
            rw [← hl]
            cases run with
            | none => rfl
            | some a =>
              cases a with
              | zero => rfl
              | succ a => exact absurd rfl (hn a)
  unfold getXex at hx
  rw [hseg] at hx
  injection hx with hx
  exact hx.symm

theorem expected_wf {segs : List Seg} {run : Option Nat} (hw : ∀ s ∈ segs, s.Wf) : ∀ s ∈ expectedSegs segs run, s.Wf := by
  intro s hs
  unfold expectedSegs at hs
  split at hs
  · exact hw s hs
  · rcases List.mem_cons.mp hs with rfl | hs
    · refine ⟨?_, ?_, ?_⟩ <;> simp [enc16]
    · exact hw s hs

theorem loadSeg_other {m : Nat → UInt8} {s : Seg} {p : Nat} (h : ¬ s.covers p) : loadSeg m s p = m p := by
  unfold loadSeg
  exact if_neg h

/-- no routine is called if nothing is put into 0x2e2 and 0x2e3 -/
theorem segs_plain {init : Nat → (Nat → UInt8) → (Nat → UInt8) → Prop} {back : Nat} : ∀ (l : List Seg) (m : Nat → UInt8),
    (∀ s ∈ l, ¬ s.covers 0x2e2 ∧ ¬ s.covers 0x2e3) → word (m 0x2e2) (m 0x2e3) = back → SegLoads init back l m (loadSegs m l) := by
  intro l
  induction l with
  | nil => intro m _ _; exact .nil m
  | cons s l ih =>
    intro m hno hb
    obtain ⟨h1, h2⟩ := hno s List.mem_cons_self
    have hb' : word (loadSeg m s 0x2e2) (loadSeg m s 0x2e3) = back := by rw [loadSeg_other h1, loadSeg_other h2]; exact hb
    exact .cons (.inl ⟨hb', rfl⟩) (ih _ (fun t ht => hno t (List.mem_cons_of_mem _ ht)) hb')

theorem loadSegs_other {p : Nat} : ∀ (l : List Seg) (m : Nat → UInt8), (∀ s ∈ l, ¬ s.covers p) → loadSegs m l p = m p := by
  intro l
  induction l with
  | nil => intro m _; rfl
  | cons s l ih =>
    intro m h
    show loadSegs (loadSeg m s) l p = m p
    rw [ih _ (fun t ht => h t (List.mem_cons_of_mem _ ht)), loadSeg_other (h s List.mem_cons_self)]

/-! ### C117 -/

/-- **C117, what holds.** An executable made from segments that was added under a name without an extension or with one of three
characters: Atari DOS loads the segment with the run address and the given ones in their order, each to its addresses, calls the
routine whose address a segment has put into 0x2e2 after this segment, and at the end the one at the address in 0x2e0. -/
theorem C117_partial {m m' : AImg} {ds} {name x : Bytes} {segs : List Seg} {run : Option Nat} (hm : Mounted m ds) (hc : Canon83 name)
    (hnew : name ∉ m.names) (hslot : m.files.length < 64) (hw : ∀ s ∈ segs, s.Wf) (hx : getXex segs run = .ok x)
    (hwr : AImg.writeFile name x m = (.ok (), m'))
    (hext : (name.dropWhile (· != 0x2e)).drop 1 = [] ∨ ((name.dropWhile (· != 0x2e)).drop 1).length = 3)
    {init : Nat → (Nat → UInt8) → (Nat → UInt8) → Prop} {back : Nat} {mem mem' : Nat → UInt8}
    (hl : SegLoads init back (expectedSegs segs run) (loadSeg mem ⟨0x2e0, enc16 back ++ enc16 back⟩) mem') :
    BLoads m'.hdr m'.bytes (dosName (name.takeWhile (· != 0x2e)) ((name.dropWhile (· != 0x2e)).drop 1)) init back mem mem'
      (word (mem' 0x2e0) (mem' 0x2e1)) := by
  have hxb := xex_bytes hx
  obtain ⟨i, e, h1, h2⟩ := bload_file hm hc hnew hslot (by rw [hxb]; exact List.cons_ne_nil _ _) hwr hext
  rw [hxb] at h2
  exact ⟨i, e, _, h1, h2, bin_pieces (expected_wf hw) hl, rfl⟩

theorem expected_memAt {segs : List Seg} {run : Option Nat} {a : Nat} (h : ∃ s ∈ segs, s.covers a) : memAt (expectedSegs segs run) a = memAt segs a := by
  obtain ⟨s, h1, h2⟩ := h
  rw [← loadSegs_memAt (fun _ => 0) segs ⟨s, h1, h2⟩]
  unfold expectedSegs
  split
  · rw [loadSegs_memAt _ _ ⟨s, h1, h2⟩]
  · rw [← loadSegs_memAt (fun _ => 0) _ ⟨s, List.mem_cons_of_mem _ h1, h2⟩]
    exact (loadSegs_covered segs ⟨s, h1, h2⟩)

/-- **C117, the usual case.** No segment covers the addresses 0x2e0 to 0x2e3: every segment is at its addresses (where they overlap
the last one counts), other memory is left alone but for the two vectors, and the program starts at the run address that was asked
for, or at the first segment. -/
theorem C117_plain_partial {m m' : AImg} {ds} {name x : Bytes} {segs : List Seg} {run : Option Nat} (hm : Mounted m ds) (hc : Canon83 name)
    (hnew : name ∉ m.names) (hslot : m.files.length < 64) (hw : ∀ s ∈ segs, s.Wf) (hx : getXex segs run = .ok x)
    (hwr : AImg.writeFile name x m = (.ok (), m'))
    (hext : (name.dropWhile (· != 0x2e)).drop 1 = [] ∨ ((name.dropWhile (· != 0x2e)).drop 1).length = 3)
    (hno : ∀ s ∈ segs, ∀ a, s.covers a → ¬ (0x2e0 ≤ a ∧ a ≤ 0x2e3)) (init : Nat → (Nat → UInt8) → (Nat → UInt8) → Prop) {back : Nat}
    (hb : back < 65536) (mem : Nat → UInt8) :
    ∃ mem', BLoads m'.hdr m'.bytes (dosName (name.takeWhile (· != 0x2e)) ((name.dropWhile (· != 0x2e)).drop 1)) init back mem mem' (runValue segs run) ∧
      (∀ s ∈ segs, ∀ a, s.covers a → mem' a = memAt segs a) ∧
      ∀ a, ¬ (0x2e0 ≤ a ∧ a ≤ 0x2e3) → (∀ s ∈ segs, ¬ s.covers a) → mem' a = mem a := by
  have h2e0 : ¬ ∃ s ∈ segs, s.origin = 0x2e0 := by
    rintro ⟨s, h1, h2⟩
    have := List.length_pos_iff.mpr (hw s h1).1
    exact hno s h1 0x2e0 ⟨by omega, by omega⟩ ⟨by omega, by omega⟩
  have hexp : expectedSegs segs run = ⟨0x2e0, enc16 (runValue segs run)⟩ :: segs := if_neg h2e0
  have hrun : runValue segs run < 65536 := by
    have hbs := (C17_build_succeeds segs run).mp ⟨x, hx⟩
    rcases hbs with h | ⟨h, hne⟩ | ⟨a, h, s, h1, h2, h3⟩
    · exact absurd h h2e0
    · cases segs with
      | nil => exact absurd rfl hne
      | cons s segs =>
        have hs := (hw s List.mem_cons_self).2.1
        have hp := List.length_pos_iff.mpr (hw s List.mem_cons_self).1
        have : runValue (s :: segs) run = s.origin := by
          rcases h with h | h <;> subst h <;> rfl
        omega
    · subst h
      have hs := (hw s h1).2.1
      cases a with
      | zero =>
        cases segs with
        | nil => cases h1
        | cons t segs =>
          have ht := (hw t List.mem_cons_self).2.1
          have hp := List.length_pos_iff.mpr (hw t List.mem_cons_self).1
          have : runValue (t :: segs) (some 0) = t.origin := rfl
          omega
      | succ a =>
        have : runValue segs (some (a + 1)) = a + 1 := rfl
        omega
  have hv : ∀ p, loadSeg mem ⟨0x2e0, enc16 back ++ enc16 back⟩ p =
      if 0x2e0 ≤ p ∧ p < 0x2e4 then (enc16 back ++ enc16 back).getD (p - 0x2e0) 0 else mem p := fun p => rfl
  have hword : ∀ n, n < 65536 → word (UInt8.ofNat n) (UInt8.ofNat (n / 256)) = n := by
    intro n hn
    unfold word; rw [toNat_ofNat, toNat_ofNat]; omega
  have hcr : ∀ p, (⟨0x2e0, enc16 (runValue segs run)⟩ : Seg).covers p ↔ 0x2e0 ≤ p ∧ p < 0x2e2 := fun p => Iff.rfl
  have hl := segs_plain (init := init) (back := back) (expectedSegs segs run) (loadSeg mem ⟨0x2e0, enc16 back ++ enc16 back⟩)
    (by
      rw [hexp]
      intro s hs
      rcases List.mem_cons.mp hs with rfl | hs
      · rw [hcr, hcr]; omega
      · exact ⟨fun h => hno s hs _ h ⟨by decide, by decide⟩, fun h => hno s hs _ h ⟨by decide, by decide⟩⟩)
    (by rw [hv, hv, if_pos (by decide), if_pos (by decide)]; exact hword back hb)
  have hres := C117_partial hm hc hnew hslot hw hx hwr hext hl
  generalize hmem : loadSegs (loadSeg mem ⟨0x2e0, enc16 back ++ enc16 back⟩) (expectedSegs segs run) = mem' at hres
  have hvec : ∀ p, 0x2e0 ≤ p → p < 0x2e2 → mem' p = (enc16 (runValue segs run)).getD (p - 0x2e0) 0 := by
    intro p h1 h2
    rw [← hmem, hexp]
    show loadSegs (loadSeg _ ⟨0x2e0, enc16 (runValue segs run)⟩) segs p = _
    rw [loadSegs_other _ _ (fun s hs h => hno s hs p h ⟨h1, by omega⟩)]
    unfold loadSeg
    exact if_pos ⟨h1, h2⟩
  have hpc : word (mem' 0x2e0) (mem' 0x2e1) = runValue segs run := by
    rw [hvec _ (by decide) (by decide), hvec _ (by decide) (by decide)]
    exact hword _ hrun
  rw [hpc] at hres
  refine ⟨mem', hres, ?_, ?_⟩
  · intro s hs a ha
    rw [← hmem, loadSegs_memAt _ _ ⟨s, by rw [hexp]; exact List.mem_cons_of_mem _ hs, ha⟩, expected_memAt ⟨s, hs, ha⟩]
  · intro a h1 h2
    rw [← hmem, hexp, loadSegs_other _ _ (by
      intro s hs
      rcases List.mem_cons.mp hs with rfl | hs
      · rw [hcr]; omega
      · exact h2 s hs), hv, if_neg (by omega)]

/-- **C117 (refuted), names.** With an extension of one or two characters the file cannot be loaded. -/
theorem C117_refuted_name {m m' : AImg} {ds} {name x : Bytes} (hm : Mounted m ds) (hc : Canon83 name)
    (hnew : name ∉ m.names) (hslot : m.files.length < 64) (hne : x ≠ []) (hwr : AImg.writeFile name x m = (.ok (), m'))
    (hext : ((name.dropWhile (· != 0x2e)).drop 1).length = 1 ∨ ((name.dropWhile (· != 0x2e)).drop 1).length = 2)
    (init : Nat → (Nat → UInt8) → (Nat → UInt8) → Prop) (back : Nat) (mem mem' : Nat → UInt8) (pc : Nat) :
    ¬ BLoads m'.hdr m'.bytes (dosName (name.takeWhile (· != 0x2e)) ((name.dropWhile (· != 0x2e)).drop 1)) init back mem mem' pc := by
  rintro ⟨i, e, d, ⟨h1, h2, h3, h4⟩, _⟩
  rcases (C113_added hm hc hnew hslot hne hwr).mp ⟨i, e, h1, fun j f hj hf => (h4 j f hj hf).1, h2, h3⟩ with h | h
  · rw [h] at hext; rcases hext with h | h <;> cases h
  · omega

/-! ### the command -/

/-- what `save_file` has written, and to which volume -/
theorem saved_atari {h m m' M} {o : Opts} {name x : Bytes} (r : Rep h m M) (hfull : (M.del name).length < 64)
    (hs : saveFile atariDriver o name x m = (.ok true, m')) :
    ∃ m1 ds1, Mounted m1 ds1 ∧ name ∉ m1.names ∧ m1.files.length < 64 ∧ AImg.writeFile name x m1 = (.ok (), m') := by
  have fin : ∀ m1, finishSave atariDriver o name x m1 = (.ok true, m') → AImg.writeFile name x m1 = (.ok (), m') := by
    intro m1 h
    unfold finishSave at h
    split at h
    · cases h
    · rw [show atariDriver.write name x m1 = AImg.writeFile name x m1 from rfl] at h
      cases hw : AImg.writeFile name x m1 with
      | mk r m2 =>
        rw [hw] at h
        cases r with
        | error e => cases h
        | ok u =>
          injection h with _ h
          rw [h]
  unfold saveFile at hs
  by_cases hin : name ∈ M.keys
  · rw [r.find_mem hin] at hs
    simp only at hs
    obtain ⟨m1, k1, k2⟩ := r.delete hin
    split at hs
    · rw [show atariDriver.delete name m = (.ok (), m1) from k1] at hs
      have hl := k2.length
      obtain ⟨ds1, d1, _⟩ := id k2
      refine ⟨m1, ds1, d1, ?_, by omega, fin m1 hs⟩
      intro hx
      have := k2.names.subset hx
      unfold FMap.keys FMap.del at this
      simp at this
    · cases hs
  · rw [r.find_not hin] at hs
    have hl := r.length
    obtain ⟨ds1, d1, _⟩ := id r
    rw [FMap.del_not hin] at hfull
    exact ⟨m, ds1, d1, fun hx => hin (r.names.subset hx), by omega, fin m hs⟩

/-- **C117, the command.** `assemble` with an output name that is new or with `--force`. -/
theorem C117_assemble_partial {h b M} {o : Opts} {output : Bytes} {segs : List Seg} {run : Option Nat} {x : Bytes} (hh : Holds h b M)
    (hdry : o.dryRun = false) (hnew : output ∉ M.keys ∨ o.force = true) (hc : Canon83 output) (hfull : (M.del output).length < 64)
    (hk : exeKind output ≠ some .bsave) (hw : ∀ s ∈ segs, s.Wf) (hx : getXex segs run = .ok x)
    (hok : (runAssemble atariDriver o .xex output segs run b).1 = .ok ())
    (hext : (output.dropWhile (· != 0x2e)).drop 1 = [] ∨ ((output.dropWhile (· != 0x2e)).drop 1).length = 3)
    (hno : ∀ s ∈ segs, ∀ a, s.covers a → ¬ (0x2e0 ≤ a ∧ a ≤ 0x2e3)) (init : Nat → (Nat → UInt8) → (Nat → UInt8) → Prop) {back : Nat}
    (hb : back < 65536) (mem : Nat → UInt8) :
    ∃ h' mem', openHeader (runAssemble atariDriver o .xex output segs run b).2 = .ok h' ∧
      BLoads h' (runAssemble atariDriver o .xex output segs run b).2
        (dosName (output.takeWhile (· != 0x2e)) ((output.dropWhile (· != 0x2e)).drop 1)) init back mem mem' (runValue segs run) ∧
      (∀ s ∈ segs, ∀ a, s.covers a → mem' a = memAt segs a) ∧
      ∀ a, ¬ (0x2e0 ≤ a ∧ a ≤ 0x2e3) → (∀ s ∈ segs, ¬ s.covers a) → mem' a = mem a := by
  have hce : createExecutable .xex output segs run = .ok x := by
    unfold createExecutable
    cases he : exeKind output with
    | none => exact hx
    | some k => cases k with
      | xex => exact hx
      | bsave => exact absurd he hk
  obtain ⟨m, ds, h1, h2, h3, h4, h5⟩ := hh
  have r : Rep h m M := ⟨ds, h2, h4, h5⟩
  subst h3
  unfold runAssemble at hok ⊢
  rw [show atariDriver.load m.bytes = .ok m from h1] at hok ⊢
  simp only [hce] at hok ⊢
  have hnf : ∀ m', saveFile atariDriver o output x m ≠ (.ok false, m') := by
    intro m' hs
    unfold saveFile at hs
    have fin : ∀ m1, finishSave atariDriver o output x m1 ≠ (.ok false, m') := by
      intro m1 hf
      unfold finishSave at hf
      rw [if_neg (by simp [hdry])] at hf
      split at hf <;> cases hf
    split at hs
    · exact fin _ hs
    · cases hs
    · rename_i hf
      rcases hnew with hn | hfo
      · rw [r.find_not hn] at hf
        cases hf
      · rw [if_pos hfo] at hs
        split at hs
        · exact fin _ hs
        · cases hs
        · exact fin _ hs
  cases hs : saveFile atariDriver o output x m with
  | mk q m' =>
    rw [hs] at hok
    cases q with
    | error e => cases hok
    | ok c =>
      cases c with
      | false => exact absurd hs (hnf m')
      | true =>
        obtain ⟨m1, ds1, g1, g2, g3, g4⟩ := saved_atari r hfull hs
        have hxb := xex_bytes hx
        obtain ⟨_, _, _, _, _, ⟨ds2, k⟩, _⟩ := added_entries g1 hc.2 (by rw [hc.1]; exact g2) g3 (by rw [hxb]; exact List.cons_ne_nil _ _) g4
        obtain ⟨mem', q1, q2, q3⟩ := C117_plain_partial g1 hc g2 g3 hw hx g4 hext hno init hb mem
        exact ⟨m'.hdr, mem', k.2.opens, q1, q2, q3⟩

/-- two segments with a gap of two bytes, assembled to `T.XEX` on a blank disk with the run address 0x2004 and loaded: the bytes are in
memory, the gap is left alone, and the program starts at 0x2004 -/
example (init : Nat → (Nat → UInt8) → (Nat → UInt8) → Prop) (mem : Nat → UInt8) : ∃ h mem',
    BLoads h (runAssemble atariDriver {} .xex [0x54, 0x2e, 0x58, 0x45, 0x58] [⟨0x2000, [1, 2]⟩, ⟨0x2004, [3]⟩] (some 0x2004) sdDisk).2
      [0x54, 32, 32, 32, 32, 32, 32, 32, 0x58, 0x45, 0x58] init 0x1234 mem mem' 0x2004 ∧
    (mem' 0x2000, mem' 0x2001, mem' 0x2004) = (1, 2, 3) ∧ mem' 0x2002 = mem 0x2002 ∧ mem' 0x2003 = mem 0x2003 := by
  have hx : getXex [⟨0x2000, [1, 2]⟩, ⟨0x2004, [3]⟩] (some 0x2004) =
    .ok [255, 255, 224, 2, 225, 2, 4, 0x20, 0, 0x20, 1, 0x20, 1, 2, 4, 0x20, 4, 0x20, 3] := by rfl
  have hc : Canon83 [0x54, 0x2e, 0x58, 0x45, 0x58] := by unfold Canon83; decide
  have hk : exeKind [0x54, 0x2e, 0x58, 0x45, 0x58] ≠ some .bsave := by decide
  have hok := C64_succeeds (o := {}) holds_sd rfl (by simp [FMap.keys]) hc (by decide) hk hx
    (by rw [sdDisk_pool]; decide)
  have hh := holds_sd
  generalize sdDisk = b at hok hh ⊢
  obtain ⟨h', mem', _, h2, h3, h4⟩ := C117_assemble_partial (o := {}) hh rfl (.inl (by simp [FMap.keys])) hc (by decide) hk (by simp [Seg.Wf]) hx hok
    (.inr (by decide)) (by
      intro s hs a ha
      simp only [List.mem_cons, List.not_mem_nil, or_false] at hs
      rcases hs with rfl | rfl <;> (unfold Seg.covers at ha; simp only at ha; omega)) init (back := 0x1234) (by decide) mem
  refine ⟨h', mem', h2, ?_, h4 _ (by decide) ?_, h4 _ (by decide) ?_⟩
  · rw [h3 ⟨0x2000, [1, 2]⟩ (by simp) 0x2000 (by unfold Seg.covers; decide), h3 ⟨0x2000, [1, 2]⟩ (by simp) 0x2001 (by unfold Seg.covers; decide),
      h3 ⟨0x2004, [3]⟩ (by simp) 0x2004 (by unfold Seg.covers; decide)]
    rfl
  · intro s hs
    simp only [List.mem_cons, List.not_mem_nil, or_false] at hs
    rcases hs with rfl | rfl <;> (unfold Seg.covers; decide)
  · intro s hs
    simp only [List.mem_cons, List.not_mem_nil, or_false] at hs
    rcases hs with rfl | rfl <;> (unfold Seg.covers; decide)

/-- a program with an init routine at 0x2000 that stores 9 in 0x4000: it is called once, before the byte at 0x3000 is loaded -/
example (mem : Nat → UInt8) : ∃ x m' mem', getXex [⟨0x2000, [0x60]⟩, ⟨0x2e2, [0x00, 0x20]⟩, ⟨0x3000, [7]⟩] none = .ok x ∧
    AImg.writeFile nameA x (mountRec sdH sdDisk []) = (.ok (), m') ∧
    BLoads m'.hdr m'.bytes [0x41, 32, 32, 32, 32, 32, 32, 32, 0x54, 0x58, 0x54]
      (fun a m m1 => a = 0x2000 ∧ m 0x3000 = mem 0x3000 ∧ m1 = poke m 0x4000 9) 0x1234 mem mem' 0x2000 ∧ mem' 0x4000 = 9 ∧ mem' 0x3000 = 7 := by
  have hx : getXex [⟨0x2000, [0x60]⟩, ⟨0x2e2, [0x00, 0x20]⟩, ⟨0x3000, [7]⟩] none = .ok
    [255, 255, 224, 2, 225, 2, 0, 0x20, 0, 0x20, 0, 0x20, 0x60, 0xe2, 2, 0xe3, 2, 0, 0x20, 0, 0x30, 0, 0x30, 7] := by rfl
  have hl : expectedSegs [⟨0x2000, [0x60]⟩, ⟨0x2e2, [0x00, 0x20]⟩, ⟨0x3000, [7]⟩] none =
      [⟨0x2e0, [0, 0x20]⟩, ⟨0x2000, [0x60]⟩, ⟨0x2e2, [0x00, 0x20]⟩, ⟨0x3000, [7]⟩] := by
    unfold expectedSegs
    rw [if_neg (by simp)]
    rfl
  have hm0 := mounted_sd
  have hn0 : (mountRec sdH sdDisk []).names = [] := rfl
  have hf0 : (mountRec sdH sdDisk []).files.length < 64 := by decide
  have hp : sectorsNeeded (mountRec sdH sdDisk []).hdr [(255 : UInt8), 255, 224, 2, 225, 2, 0, 0x20, 0, 0x20, 0, 0x20, 0x60, 0xe2, 2, 0xe3, 2, 0, 0x20, 0, 0x30, 0, 0x30, 7].length ≤
      (freePool (mountRec sdH sdDisk []).hdr (mountRec sdH sdDisk []).bytes).length := by
    show sectorsNeeded sdH _ ≤ (freePool sdH sdDisk).length
    rw [sdDisk_pool]; decide
  generalize mountRec sdH sdDisk [] = m at hm0 hn0 hf0 hp ⊢
  have hnew : nameA ∉ m.names := by rw [hn0]; exact fun h => nomatch h
  obtain ⟨m', ds', hw, _⟩ := C01_write_succeeds hm0 canonA hnew hf0 (by decide) hp
  have := C117_partial hm0 canonA hnew hf0 (by simp [Seg.Wf]) hx hw (.inr (by decide))
    (init := fun a m m1 => a = 0x2000 ∧ m 0x3000 = mem 0x3000 ∧ m1 = poke m 0x4000 9) (back := 0x1234) (mem := mem)
    (mem' := loadSeg (loadSeg (poke (loadSeg (loadSeg (loadSeg (loadSeg mem ⟨0x2e0, enc16 0x1234 ++ enc16 0x1234⟩) ⟨0x2e0, [0, 0x20]⟩) ⟨0x2000, [0x60]⟩)
      ⟨0x2e2, [0x00, 0x20]⟩) 0x4000 9) ⟨0x2e2, enc16 0x1234⟩) ⟨0x3000, [7]⟩)
    (by
      rw [hl]
      refine .cons (.inl ⟨?_, rfl⟩) (.cons (.inl ⟨?_, rfl⟩) (.cons (.inr ⟨?_, _, ⟨?_, ?_, rfl⟩, rfl⟩) (.cons (.inl ⟨?_, rfl⟩) (.nil _)))) <;>
        simp [loadSeg, enc16, word])
  generalize hM : loadSeg _ ⟨0x3000, [7]⟩ = mem' at this
  have e1 : word (mem' 0x2e0) (mem' 0x2e1) = 0x2000 := by rw [← hM]; simp [loadSeg, poke, word]
  rw [e1] at this
  exact ⟨_, m', mem', hx, hw, this, by rw [← hM]; simp [loadSeg, poke], by rw [← hM]; simp [loadSeg]⟩

/-- `T.X` on a blank disk -/
example : ∃ x m', getXex [⟨0x2000, [0x60]⟩] none = .ok x ∧ AImg.writeFile [0x54, 0x2e, 0x58] x (mountRec sdH sdDisk []) = (.ok (), m') ∧
    ∀ init back mem mem' pc, ¬ BLoads m'.hdr m'.bytes [0x54, 32, 32, 32, 32, 32, 32, 32, 0x58, 32, 32] init back mem mem' pc := by
  have hx : getXex [⟨0x2000, [0x60]⟩] none = .ok [255, 255, 224, 2, 225, 2, 0, 0x20, 0, 0x20, 0, 0x20, 0x60] := by rfl
  have hc : Canon83 [0x54, 0x2e, 0x58] := by unfold Canon83; decide
  have hm0 := mounted_sd
  have hn0 : (mountRec sdH sdDisk []).names = [] := rfl
  have hf0 : (mountRec sdH sdDisk []).files.length < 64 := by decide
  have hp : sectorsNeeded (mountRec sdH sdDisk []).hdr [(255 : UInt8), 255, 224, 2, 225, 2, 0, 0x20, 0, 0x20, 0, 0x20, 0x60].length ≤
      (freePool (mountRec sdH sdDisk []).hdr (mountRec sdH sdDisk []).bytes).length := by
    show sectorsNeeded sdH _ ≤ (freePool sdH sdDisk).length
    rw [sdDisk_pool]; decide
  generalize mountRec sdH sdDisk [] = m at hm0 hn0 hf0 hp ⊢
  have hnew : [0x54, 0x2e, 0x58] ∉ m.names := by rw [hn0]; exact fun h => nomatch h
  obtain ⟨m', ds', hw, _⟩ := C01_write_succeeds hm0 hc hnew hf0 (by decide) hp
  exact ⟨_, m', hx, hw, C117_refuted_name hm0 hc hnew hf0 (by decide) hw (.inl (by decide))⟩

end Atr
