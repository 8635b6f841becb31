import Verif.Spec.System
import Verif.Props.AtariNames
import Verif.Props.AtariBoot
import Verif.Props.Cli
import Verif.Props.AtariLeft
/-!
# C119: working on disks with DOS on them
-/
namespace Atr

/-! ### the sectors of the files -/

theorem sysEnd_le : ∀ (fs : List SysFile) (a : Nat), a ≤ sysEnd a fs := by
  intro fs
  induction fs with
  | nil => intro a; exact Nat.le_refl _
  | cons f fs ih => intro a; have := ih (a + f.count); simp only [sysEnd]; omega

theorem length_sysStarts : ∀ (fs : List SysFile) (a : Nat), (sysStarts a fs).length = fs.length := by
  intro fs
  induction fs with
  | nil => intro a; rfl
  | cons f fs ih => intro a; simp [sysStarts, ih]

theorem map_sysStarts : ∀ (fs : List SysFile) (a : Nat), (sysStarts a fs).map (·.2) = fs := by
  intro fs
  induction fs with
  | nil => intro a; rfl
  | cons f fs ih => intro a; simp [sysStarts, ih]

theorem sysStarts_bounds : ∀ (fs : List SysFile) (a i : Nat) (x : Nat × SysFile), (sysStarts a fs)[i]? = some x →
    a ≤ x.1 ∧ x.1 + x.2.count ≤ sysEnd a fs := by
  intro fs
  induction fs with
  | nil => intro a i x hx; simp [sysStarts] at hx
  | cons f fs ih =>
    intro a i x hx
    cases i with
    | zero =>
      simp only [sysStarts, List.getElem?_cons_zero, Option.some.injEq] at hx
      subst hx
      exact ⟨Nat.le_refl _, sysEnd_le fs _⟩
    | succ i =>
      simp only [sysStarts, List.getElem?_cons_succ] at hx
      have := ih _ _ _ hx
      exact ⟨by omega, this.2⟩

theorem sysStarts_apart : ∀ (fs : List SysFile) (a i j : Nat) (x y : Nat × SysFile), (sysStarts a fs)[i]? = some x →
    (sysStarts a fs)[j]? = some y → i < j → x.1 + x.2.count ≤ y.1 := by
  intro fs
  induction fs with
  | nil => intro a i j x y hx; simp [sysStarts] at hx
  | cons f fs ih =>
    intro a i j x y hx hy hij
    cases j with
    | zero => omega
    | succ j =>
      simp only [sysStarts, List.getElem?_cons_succ] at hy
      cases i with
      | zero =>
        simp only [sysStarts, List.getElem?_cons_zero, Option.some.injEq] at hx
        subst hx
        exact (sysStarts_bounds fs _ _ _ hy).1
      | succ i =>
        simp only [sysStarts, List.getElem?_cons_succ] at hx
        exact ih _ _ _ _ _ hx hy (by omega)

/-! ### the entries -/

/-- the entry of a file -/
def sysDirent (i : Nat) (x : Nat × SysFile) : ADirent :=
  { fileNum := i, flag := x.2.flag, openedOutput := false, dos2 := true, mydos := false, isDir := false,
    locked := x.2.flag.toNat.testBit 5, inUse := true, deleted := false, numSectors := x.2.count, startingSector := x.1,
    basename := x.2.base, ext := x.2.ext, isSane := true }

theorem padded_field {n : Nat} {x : Bytes} (h0 : (0 : UInt8) ∉ x) (hw : rstripWs x = x) :
    rstripWs (rstripNul (x ++ List.replicate n 32)) = x := by
  rw [rstripNul_eq _ (noTrail_of_not_mem ?_), rstripWs_spaces, hw]
  intro h
  rcases List.mem_append.mp h with h | h
  · exact h0 h
  · exact absurd (List.eq_of_mem_replicate h) (by decide)

theorem sys_sane {h : AHeader} {n : Nat} (g : h.Geom n) {d : ADirent} {st count : Nat} (hu : d.inUse = true) (hn : d.numSectors = count)
    (hs : d.startingSector = st) (h1 : 1 ≤ st) (h2 : st ≤ h.maxSectors) (h3 : count ≤ h.maxSectors) : d.sanityCheck h = true := by
  have hv : h.sectorIsValid st = true := (AHeader.sectorIsValid_iff g st).mpr ⟨h1, h2⟩
  simp [ADirent.sanityCheck, hu, hn, hs, hv]; omega

theorem sys_parse {h : AHeader} {n : Nat} (g : h.Geom n) (i : Nat) {x : Nat × SysFile} (p : x.2.Plain) (h1 : 1 ≤ x.1) (h2 : x.1 ≤ h.maxSectors)
    (h3 : x.2.count ≤ h.maxSectors) (h4 : x.1 < 65536) (h5 : x.2.count < 65536) :
    ADirent.parse h i (x.2.flag :: (enc16 x.2.count ++ enc16 x.1 ++ dosName x.2.base x.2.ext)) = .ok (sysDirent i x) := by
  have hb := padded_field (n := 8 - x.2.base.length) p.base.2.1 p.base.2.2
  have he := padded_field (n := 3 - x.2.ext.length) p.ext.2.1 p.ext.2.2
  have e1 : (x.2.base ++ List.replicate (8 - x.2.base.length) (32 : UInt8)).length = 8 := by
    have := p.base.1; simp; omega
  have e2 : (x.2.ext ++ List.replicate (3 - x.2.ext.length) (32 : UInt8)).length = 3 := by
    have := p.ext.1; simp; omega
  unfold dosName
  generalize x.2.base ++ List.replicate (8 - x.2.base.length) (32 : UInt8) = B at *
  generalize x.2.ext ++ List.replicate (3 - x.2.ext.length) (32 : UInt8) = E at *
  obtain ⟨a0, a1, a2, a3, a4, a5, a6, a7, rfl⟩ := exists8 e1
  obtain ⟨c0, c1, c2, rfl⟩ := exists3 e2
  have hn : le16 (UInt8.ofNat x.2.count) (UInt8.ofNat (x.2.count / 256)) = x.2.count := by
    rw [le16_enc, Nat.mod_eq_of_lt h5]
  have hs : le16 (UInt8.ofNat x.1) (UInt8.ofNat (x.1 / 256)) = x.1 := by rw [le16_enc, Nat.mod_eq_of_lt h4]
  have bits : x.2.flag.toNat.testBit 0 = false ∧ x.2.flag.toNat.testBit 1 = true ∧ x.2.flag.toNat.testBit 2 = false ∧
      x.2.flag.toNat.testBit 4 = false ∧ x.2.flag.toNat.testBit 6 = true ∧ x.2.flag.toNat.testBit 7 = false := by
    rcases p.flag with h | h <;> rw [h] <;> decide
  obtain ⟨b0, b1, b2, b4, b6, b7⟩ := bits
  show ADirent.parse h i [x.2.flag, UInt8.ofNat x.2.count, UInt8.ofNat (x.2.count / 256), UInt8.ofNat x.1, UInt8.ofNat (x.1 / 256),
    a0, a1, a2, a3, a4, a5, a6, a7, c0, c1, c2] = _
  unfold ADirent.parse
  simp only [hn, hs, hb, he, b0, b1, b2, b4, b6, b7]
  rw [sys_sane g rfl rfl rfl h1 h2 h3]
  rfl

theorem sys_reread {h : AHeader} {n : Nat} (g : h.Geom n) (i : Nat) {x : Nat × SysFile} (p : x.2.Plain) (h1 : 1 ≤ x.1) (h2 : x.1 ≤ h.maxSectors)
    (h3 : x.2.count ≤ h.maxSectors) (h4 : x.1 < 65536) (h5 : x.2.count < 65536) :
    ADirent.parse h i (sysDirent i x).encode = .ok (sysDirent i x) := by
  rw [parse_encode]
  have hf : UInt8.ofNat (sysDirent i x).encodeFlag = x.2.flag := by
    unfold ADirent.encodeFlag sysDirent
    rcases p.flag with h | h <;> simp only [h] <;> decide
  have hm : x.2.count % 65536 = x.2.count := Nat.mod_eq_of_lt h5
  have hm2 : (x.1 : Int) % 65536 = x.1 := by omega
  unfold ADirent.reread
  rw [hf]
  simp only [sysDirent, field_reread p.base.1 p.base.2.1 p.base.2.2, field_reread p.ext.1 p.ext.2.1 p.ext.2.2, hm, hm2]
  rw [sys_sane g rfl rfl rfl h1 h2 h3]

/-! ### the chains -/

/-- what is read from a file -/
def sysChain (h : AHeader) (x : Nat × SysFile) (k n : Nat) : List (Nat × Nat × Nat) :=
  (List.range' k n).map fun k => (x.1 + k, h.dpos (x.1 + k), x.2.used k)

theorem sys_sector {h : AHeader} {b : Bytes} (g : h.Geom b.length) (hss : h.sectorSize = 128) {d : ADirent} (hm : d.mydos = false)
    {i s next used : Nat} (hi : d.fileNum = i) (hi2 : i < 64) (hs : h.DataSec s) (hn : next < 1024) (hu : used < 256)
    (hl : slice (sec h b s) 125 128 = [UInt8.ofNat (4 * i + next / 256), UInt8.ofNat next, UInt8.ofNat used])
    {seen : List Nat} (hne : next ∉ s :: seen) :
    d.readSector h b ⟨s, seen⟩ = .ok (⟨next, s :: seen⟩, next == 0, h.dpos s, used) := by
  have hlen := length_sec g hs
  rw [hss] at hlen
  have hg : ∀ k, k < 3 → (sec h b s)[125 + k]? = (slice (sec h b s) 125 128)[k]? := by
    intro k hk
    rw [getElem?_slice, if_pos (by omega)]
  rw [hl] at hg
  have g0 : (sec h b s).getD 125 0 = UInt8.ofNat (4 * i + next / 256) := by
    rw [List.getD_eq_getElem?_getD, hg 0 (by omega)]; rfl
  have g1 : (sec h b s).getD 126 0 = UInt8.ofNat next := by
    rw [List.getD_eq_getElem?_getD, hg 1 (by omega)]; rfl
  have g2 : (sec h b s).getD 127 0 = UInt8.ofNat used := by
    rw [List.getD_eq_getElem?_getD, hg 2 (by omega)]; rfl
  have r : d.processRaw ⟨s, seen⟩ (sec h b s) = .ok (⟨next, s :: seen⟩, used) := by
    unfold ADirent.processRaw
    rw [hlen, if_neg (by omega)]
    simp only [Nat.reduceSub, g0, g1, g2, hm, Bool.false_eq_true, if_false]
    rw [toNat_ofNat, toNat_ofNat, toNat_ofNat]
    have q1 : (4 * i + next / 256) % 256 / 4 = d.fileNum := by omega
    have q2 : (4 * i + next / 256) % 256 % 4 * 256 + next % 256 = next := by omega
    have q3 : used % 256 = used := by omega
    rw [q1, q2, q3]
    have q4 : (s :: seen).contains next = false := by
      rw [Bool.eq_false_iff]; intro h; exact hne (List.contains_iff_mem.mp h)
    rw [q4]
    simp
  unfold ADirent.readSector
  rw [getRawBytes_data g hs]
  simp only
  rw [r]

theorem sys_readLoop {h : AHeader} {b : Bytes} (g : h.Geom b.length) (hss : h.sectorSize = 128) (hmax : 360 ≤ h.maxSectors)
    {d : ADirent} (hm : d.mydos = false) {i : Nat} (hi : d.fileNum = i) (hi2 : i < 64) {x : Nat × SysFile} (p : x.2.Plain)
    (h4 : 4 ≤ x.1) (hend : x.1 + x.2.count ≤ 360)
    (hl : ∀ k < x.2.count, slice (sec h b (x.1 + k)) 125 128 =
      [UInt8.ofNat (4 * i + x.2.next x.1 k / 256), UInt8.ofNat (x.2.next x.1 k), UInt8.ofNat (x.2.used k)]) :
    ∀ (n k fuel : Nat) (seen : List Nat), k + n = x.2.count → 0 < n → n ≤ fuel → (∀ s ∈ seen, 0 < s ∧ s < x.1 + k) →
      d.readLoop h b fuel ⟨x.1 + k, seen⟩ = .ok (sysChain h x k n) := by
  intro n
  induction n with
  | zero => intro k fuel seen _ h0; omega
  | succ n ih =>
    intro k fuel seen hk _ hf hseen
    cases fuel with
    | zero => omega
    | succ fuel =>
      have hu : x.2.used k < 256 := by
        have := p.last; unfold SysFile.used; split <;> omega
      have hd : h.DataSec (x.1 + k) := dataSec_of g (by omega) (by omega)
      by_cases hlast : n = 0
      · subst hlast
        have hn : x.2.next x.1 k = 0 := by unfold SysFile.next; rw [if_pos hk]
        have hs := sys_sector g hss hm hi hi2 hd (next := x.2.next x.1 k) (by omega) hu (hl k (by omega)) (seen := seen) (by
          rw [hn]; intro hc
          rcases List.mem_cons.mp hc with hc | hc
          · omega
          · exact absurd (hseen _ hc).1 (by omega))
        unfold ADirent.readLoop
        rw [hs]
        simp only [hn, beq_self_eq_true, if_true]
        rfl
      · have hn : x.2.next x.1 k = x.1 + (k + 1) := by unfold SysFile.next; rw [if_neg (by omega)]; omega
        have hs := sys_sector g hss hm hi hi2 hd (next := x.2.next x.1 k) (by omega) hu (hl k (by omega)) (seen := seen) (by
          rw [hn]; intro hc
          rcases List.mem_cons.mp hc with hc | hc
          · omega
          · exact absurd (hseen _ hc).2 (by omega))
        unfold ADirent.readLoop
        rw [hs]
        have hz : (x.2.next x.1 k == 0) = false := by rw [hn]; exact beq_false_of_ne (by omega)
        simp only [hz, Bool.false_eq_true, if_false]
        rw [hn, ih (k + 1) fuel _ (by omega) (by omega) (by omega) (by
          intro s hs
          rcases List.mem_cons.mp hs with rfl | hs
          · omega
          · have := hseen s hs; omega)]
        rfl

/-! ### the disk -/

/-- the directory -/
def sysDir (fs : List SysFile) : List ADirent := (sysStarts 4 fs).mapIdx sysDirent

section
variable {h : AHeader} {b : Bytes} {fs : List SysFile} (D : SystemDisk h b fs)
include D

theorem SystemDisk.facts {i : Nat} {x : Nat × SysFile} (hx : (sysStarts 4 fs)[i]? = some x) :
    x.2.Plain ∧ 4 ≤ x.1 ∧ x.1 + x.2.count ≤ 360 ∧ x.1 + x.2.count ≤ sysEnd 4 fs ∧ i < 64 := by
  have hb := sysStarts_bounds fs 4 i x hx
  have hlt := (List.getElem?_eq_some_iff.mp hx).1
  rw [length_sysStarts] at hlt
  refine ⟨D.plain _ ?_, hb.1, by have := D.room; omega, hb.2, by have := D.slots; omega⟩
  rw [← map_sysStarts fs 4]
  exact List.mem_map_of_mem (List.mem_of_getElem? hx)

theorem SystemDisk.chain {i : Nat} {x : Nat × SysFile} (hx : (sysStarts 4 fs)[i]? = some x) :
    (sysDirent i x).readChain h b = .ok (sysChain h x 0 x.2.count) := by
  obtain ⟨p, h4, hend, _, hi⟩ := D.facts hx
  have g := openHeader_geom D.opens
  have hs := D.size
  have hc := p.count
  unfold ADirent.readChain
  have e : (sysDirent i x).startingSector = (x.1 : Int) := rfl
  rw [e, if_neg (by simp [sysDirent]), if_neg (by omega)]
  exact sys_readLoop g D.sectorSize (by omega) rfl rfl hi p h4 hend (D.links i x hx) x.2.count 0 _ [] (by omega) (by omega) (by omega)
    (fun s hs => by cases hs)

theorem SystemDisk.members {i : Nat} {x : Nat × SysFile} (hx : (sysStarts 4 fs)[i]? = some x) :
    ∀ y ∈ sysChain h x 0 x.2.count, (x.1 ≤ y.1 ∧ y.1 < x.1 + x.2.count) ∧ y.2.2 ≤ 125 := by
  intro y hy
  obtain ⟨p, _⟩ := D.facts hx
  unfold sysChain at hy
  obtain ⟨k, hk, rfl⟩ := List.mem_map.mp hy
  have := List.mem_range'_1.mp hk
  have hl := p.last
  refine ⟨by simp only; omega, ?_⟩
  show x.2.used k ≤ 125
  unfold SysFile.used
  split <;> omega

theorem SystemDisk.nonempty {i : Nat} {x : Nat × SysFile} (hx : (sysStarts 4 fs)[i]? = some x) :
    byteOrder (sysChain h x 0 x.2.count) ≠ [] := by
  obtain ⟨p, _⟩ := D.facts hx
  have hc := p.count
  have hl := p.last
  intro he
  unfold byteOrder sysChain at he
  rw [List.flatMap_eq_nil_iff] at he
  have := he (x.1 + 0, h.dpos (x.1 + 0), x.2.used 0) (List.mem_map.mpr ⟨0, List.mem_range'_1.mpr ⟨by omega, by omega⟩, rfl⟩)
  have := congrArg List.length this
  simp only [List.length_range', List.length_nil, SysFile.used] at this
  split at this <;> omega

omit D in
theorem sysDir_get (fs : List SysFile) (i : Nat) : (sysDir fs)[i]? = ((sysStarts 4 fs)[i]?).map (sysDirent i) := by
  unfold sysDir
  rw [List.getElem?_mapIdx]

/-- the disk is consistent -/
theorem SystemDisk.consistent : Consistent h b (sysDir fs) := by
  have g := openHeader_geom D.opens
  have hsize := D.size
  have hlen : (sysDir fs).length = fs.length := by unfold sysDir; rw [List.length_mapIdx, length_sysStarts]
  have get : ∀ {i d}, (sysDir fs)[i]? = some d → ∃ x, (sysStarts 4 fs)[i]? = some x ∧ d = sysDirent i x := by
    intro i d hd
    rw [sysDir_get] at hd
    cases hx : (sysStarts 4 fs)[i]? with
    | none => rw [hx] at hd; simp at hd
    | some x => rw [hx] at hd; exact ⟨x, rfl, by simpa using hd.symm⟩
  have hraw16 : ∀ e ∈ rawEntries h b, e.length = 16 := by
    refine mem_chunks_length_eq 16 (by omega) _ ?_
    rw [length_slice]
    have hds : h.DataSec 368 := dataSec_of g (by omega) (by omega)
    have hf := hds.fit g
    have hni := g.ni
    have : h.dpos 368 = h.dpos 361 + 7 * h.sectorSize := dpos_add h 361 7 (by omega)
    have hss := D.sectorSize
    rw [hss] at hf this ⊢
    exact ⟨64, by omega⟩
  have hge : fs.length ≤ (rawEntries h b).length := by
    cases hfs : fs.length with
    | zero => omega
    | succ n =>
      have : n < (sysStarts 4 fs).length := by rw [length_sysStarts]; omega
      have := D.entries n _ (List.getElem?_eq_getElem this)
      have := (List.getElem?_eq_some_iff.mp this).1
      omega
  have par : ∀ {i : Nat} {x : Nat × SysFile}, (sysStarts 4 fs)[i]? = some x → 1 ≤ x.1 ∧ x.1 ≤ h.maxSectors ∧ x.2.count ≤ h.maxSectors ∧ x.1 < 65536 ∧ x.2.count < 65536 := by
    intro i x hx
    obtain ⟨p, h4, hend, _⟩ := D.facts hx
    omega
  refine { opens := D.opens, sectorSize := Or.inl D.sectorSize, size := by omega, ed := D.ed, vtocCode := Or.inr D.vtocCode, dir := ?_,
           stable := ?_, chains := ?_, disjoint := ?_, free := ?_, first := ?_, term := ?_ }
  · rw [← List.take_append_drop fs.length (rawEntries h b)]
    refine scanDir_append h _ _ 0 _ ?_ ?_ ?_
    · rw [List.length_take, hlen]; omega
    · intro i r d hr hd
      obtain ⟨x, hx, rfl⟩ := get hd
      have hi := (List.getElem?_eq_some_iff.mp hx).1
      rw [length_sysStarts] at hi
      rw [List.getElem?_take, if_pos hi, D.entries i x hx] at hr
      injection hr with hr
      obtain ⟨p1, p2, p3, p4, p5⟩ := par hx
      rw [← hr, Nat.zero_add, sys_parse g i (D.facts hx).1 p1 p2 p3 p4 p5]
      exact ⟨rfl, Or.inl rfl⟩
    · intro e he
      rw [List.head?_drop] at he
      exact ⟨hraw16 e (List.mem_of_getElem? he), D.unused _ e (Nat.le_refl _) he⟩
  · intro i d hd
    obtain ⟨x, hx, rfl⟩ := get hd
    obtain ⟨p1, p2, p3, p4, p5⟩ := par hx
    exact sys_reread g i (D.facts hx).1 p1 p2 p3 p4 p5
  · intro d hd _
    obtain ⟨i, hi⟩ := List.getElem?_of_mem hd
    obtain ⟨x, hx, rfl⟩ := get hi
    obtain ⟨p, h4, hend, he, _⟩ := D.facts hx
    refine ⟨_, D.chain hx, D.nonempty hx, ?_, ?_⟩
    · unfold sysChain
      rw [List.map_map]
      exact List.pairwise_map.mpr (List.Pairwise.imp (R := (· ≠ ·)) (fun hac hc => hac (Nat.add_left_cancel hc)) List.nodup_range')
    · intro y hy
      obtain ⟨⟨m1, m2⟩, m3⟩ := D.members hx y hy
      refine ⟨⟨by omega, by omega, by omega, by omega⟩, ?_, by rw [D.sectorSize]; omega⟩
      rw [D.bitmap]
      omega
  · intro i j d e hd he hij _ _ l l' hl hl' y hy z hz
    obtain ⟨x, hx, rfl⟩ := get hd
    obtain ⟨w, hw, rfl⟩ := get he
    rw [D.chain hx] at hl
    rw [D.chain hw] at hl'
    injection hl with hl
    injection hl' with hl'
    subst hl hl'
    have m := (D.members hx y hy).1
    have n := (D.members hw z hz).1
    rcases Nat.lt_or_gt_of_ne hij with hlt | hgt
    · have := sysStarts_apart fs 4 i j x w hx hw hlt; omega
    · have := sysStarts_apart fs 4 j i w x hw hx hgt; omega
  · intro s hs
    have := (D.bitmap s).mp hs
    have := sysEnd_le fs 4
    unfold UserSec
    omega
  · intro i j d e hd he _ hij
    obtain ⟨x, hx, rfl⟩ := get hd
    obtain ⟨w, hw, rfl⟩ := get he
    have hnd := D.names
    rw [← map_sysStarts fs 4, List.map_map] at hnd
    intro heq
    have hi := (List.getElem?_eq_some_iff.mp hx).1
    have hj := (List.getElem?_eq_some_iff.mp hw).1
    have hne := List.pairwise_iff_getElem.mp hnd j i (by rw [List.length_map]; exact hj) (by rw [List.length_map]; exact hi) hij
    apply hne
    rw [List.getElem_map, List.getElem_map, (List.getElem?_eq_some_iff.mp hx).2, (List.getElem?_eq_some_iff.mp hw).2]
    exact heq
  · intro i e hi _ he
    rw [hlen] at hi
    exact D.unused i e hi he

/-- what is listed -/
theorem SystemDisk.getFile {i : Nat} {x : Nat × SysFile} (hx : (sysStarts 4 fs)[i]? = some x) :
    (sysDirent i x).getFile h b = .ok (sysData h b x) := by
  have g := openHeader_geom D.opens
  have hsize := D.size
  obtain ⟨p, h4, hend, he, _⟩ := D.facts hx
  rw [getFile_eq g (D.chain hx) ?_ (D.nonempty hx)]
  · unfold chainBytes sysChain sysData
    rw [List.flatMap_map, List.range_eq_range']
  · intro y hy
    obtain ⟨⟨m1, m2⟩, m3⟩ := D.members hx y hy
    exact ⟨dataSec_of g (by omega) (by omega), by rw [D.sectorSize]; omega⟩

theorem SystemDisk.opened {m : AImg} (ho : AImg.open b = .ok m) : Mounted m (sysDir fs) ∧ m.hdr = h ∧ m.bytes = b ∧ m.files = sysDir fs := by
  have hm := mounted_mountRec D.consistent
  have e := open_eq D.consistent.toLoose
  rw [e] at ho
  injection ho with ho
  subst ho
  refine ⟨hm, rfl, rfl, ?_⟩
  show (sysDir fs).filter (·.inUse) = _
  apply List.filter_eq_self.mpr
  intro d hd
  obtain ⟨i, hi⟩ := List.getElem?_of_mem hd
  rw [sysDir_get] at hi
  cases hx : (sysStarts 4 fs)[i]? with
  | none => rw [hx] at hi; simp at hi
  | some x => rw [hx] at hi; injection hi with hi; subst hi; rfl

theorem SystemDisk.listed {m : AImg} (ho : AImg.open b = .ok m) {i : Nat} {x : Nat × SysFile} (hx : (sysStarts 4 fs)[i]? = some x) :
    sysDirent i x ∈ m.files := by
  rw [(D.opened ho).2.2.2]
  refine List.mem_of_getElem? (i := i) ?_
  rw [sysDir_get, hx]
  rfl

end

theorem sorted_unique : ∀ {l l' : List Nat}, l.Pairwise (· < ·) → l'.Pairwise (· < ·) → (∀ x, x ∈ l ↔ x ∈ l') → l = l' := by
  intro l
  induction l with
  | nil =>
    intro l' _ _ h
    cases l' with
    | nil => rfl
    | cons a l' => exact absurd ((h a).mpr List.mem_cons_self) (by simp)
  | cons a l ih =>
    intro l' h1 h2 h
    cases l' with
    | nil => exact absurd ((h a).mp List.mem_cons_self) (by simp)
    | cons c l' =>
      rw [List.pairwise_cons] at h1 h2
      have hac : a = c := by
        rcases List.mem_cons.mp ((h a).mp List.mem_cons_self) with h | ha
        · exact h
        · rcases List.mem_cons.mp ((h c).mpr List.mem_cons_self) with h | hc
          · exact h.symm
          · have := h1.1 c hc; have := h2.1 a ha; omega
      subst hac
      congr 1
      refine ih h1.2 h2.2 fun x => ⟨fun hx => ?_, fun hx => ?_⟩
      · rcases List.mem_cons.mp ((h x).mp (List.mem_cons_of_mem _ hx)) with rfl | h
        · exact absurd (h1.1 _ hx) (by omega)
        · exact h
      · rcases List.mem_cons.mp ((h x).mpr (List.mem_cons_of_mem _ hx)) with rfl | h
        · exact absurd (h2.1 _ hx) (by omega)
        · exact h

theorem sysEnd_eq : ∀ (fs : List SysFile) (a : Nat), sysEnd a fs = a + (fs.map (·.count)).sum := by
  intro fs
  induction fs with
  | nil => intro a; rfl
  | cons f fs ih => intro a; simp only [sysEnd, List.map_cons, List.sum_cons]; rw [ih]; omega

/-! ### C119 -/

/-- **C119, what is on the disk.** A disk on which DOS has written files opens as a consistent volume; the files are listed with
their names and read with all their bytes, and the free sectors are the 707 of an empty disk but those of the files. -/
theorem C119_holds {h b fs} (D : SystemDisk h b fs) :
    Holds h b (sysFiles h b fs) ∧ (freePool h b).length = 707 - (fs.map (·.count)).sum := by
  constructor
  · have ho := open_eq D.consistent.toLoose
    obtain ⟨hm, h1, h2, h3⟩ := D.opened ho
    refine ⟨_, _, ho, hm, h2, h1, ?_⟩
    have : (mountRec h b (sysDir fs)).listing = (sysFiles h b fs).map fun x => (x.1, .ok x.2) := by
      unfold AImg.listing sysFiles
      rw [h3, h1, h2]
      apply List.ext_getElem?
      intro i
      rw [List.getElem?_map, sysDir_get, List.map_map, List.getElem?_map]
      cases hx : (sysStarts 4 fs)[i]? with
      | none => rfl
      | some x =>
        show some ((sysDirent i x).filename, (sysDirent i x).getFile h b) = some (x.2.filename, .ok (sysData h b x))
        rw [D.getFile hx]
        rfl
    rw [this]
  · have hr := D.room
    have he := sysEnd_eq fs 4
    have : freePool h b = List.range' (sysEnd 4 fs) (360 - sysEnd 4 fs) ++ List.range' 369 351 := by
      refine sorted_unique (freeList_sorted _) ?_ ?_
      · rw [List.pairwise_append]
        refine ⟨List.pairwise_lt_range', List.pairwise_lt_range', ?_⟩
        intro x hx y hy
        rw [List.mem_range'_1] at hx hy
        omega
      · intro s
        rw [List.mem_append, List.mem_range'_1, List.mem_range'_1]
        unfold freePool
        rw [mem_freeList]
        have := D.bitmap s
        unfold IsFree at this
        rw [this]
        omega
    rw [this, List.length_append, List.length_range', List.length_range']
    omega

/-- **C119, commands.** Histories of `add`, `remove` and `shred` commands of any length act on it like map operations on the
files of the system and the others (C05). -/
theorem C119_history {h b fs} (D : SystemDisk h b fs) (hmax : h.maxSectors < 1280) {N : List Bytes} (cs : List (Opts × Cmd))
    (hN : N.length ≤ 64) (hM : ∀ f ∈ fs, f.filename ∈ N) (hw : ∀ x ∈ cs, x.2.Within N ∧ x.2.Single x.1) :
    Holds h (runHistory atariDriver cs b).2 (plainHistory (sysFiles h b fs) cs (runHistory atariDriver cs b).1) := by
  refine C05_plain cs (C119_holds D).1 hmax hN ?_ hw
  intro k hk
  unfold FMap.keys sysFiles at hk
  rw [List.map_map] at hk
  obtain ⟨x, hx, rfl⟩ := List.mem_map.mp hk
  apply hM
  rw [← map_sysStarts fs 4]
  exact List.mem_map_of_mem hx

theorem ReachBut.reach {k : Bytes} {m m' : AImg} (hr : ReachBut k m m') : Reach m m' := by
  induction hr with
  | start => exact .start
  | step op _ ha _ ih => exact .step op ih ha

/-- **C119, starting the computer.** After any history of operations that does not remove a file of the system (`DOS.SYS`, say),
the boot sectors are the same, and the entry of the file still has its first sector, from which all its bytes are read. -/
theorem C119_boots {h b fs} (D : SystemDisk h b fs) {m m' : AImg} (ho : AImg.open b = .ok m) {i : Nat} {x : Nat × SysFile}
    (hx : (sysStarts 4 fs)[i]? = some x) (hr : ReachBut x.2.filename m m') :
    m'.bytes.take (bootEnd h) = b.take (bootEnd h) ∧
      ∃ d ∈ m'.files, d.filename = x.2.filename ∧ d.startingSector = x.1 ∧ d.numSectors = x.2.count ∧
        d.getFile m'.hdr m'.bytes = .ok (sysData h b x) := by
  obtain ⟨hm, h1, h2, _⟩ := D.opened ho
  have hd := D.listed ho hx
  obtain ⟨k1, k2⟩ := C112_kept hm hd hr
  have hb := (C67_history hm hr.reach).2.2
  rw [h1, h2] at hb
  refine ⟨hb, _, k1, rfl, rfl, rfl, ?_⟩
  rw [k2, h1, h2, D.getFile hx]

theorem slice_entry {f : UInt8} {a c : Nat} {n : Bytes} (hn : n.length = 11) : slice (f :: (enc16 a ++ enc16 c ++ n)) 5 16 = n := by
  show ((f :: UInt8.ofNat a :: UInt8.ofNat (a / 256) :: UInt8.ofNat c :: UInt8.ofNat (c / 256) :: n).take 16).drop 5 = n
  simp only [List.take_succ_cons, List.drop_succ_cons, List.drop_zero]
  exact List.take_of_length_le (by omega)

/-- **C119, what DOS finds.** At first DOS finds all its files. -/
theorem C119_found {h b fs} (D : SystemDisk h b fs) {m : AImg} (ho : AImg.open b = .ok m) {i : Nat} {x : Nat × SysFile}
    (hx : (sysStarts 4 fs)[i]? = some x) : m.DosHas x.2.base x.2.ext := by
  obtain ⟨_, h1, h2, _⟩ := D.opened ho
  unfold AImg.DosHas
  rw [h1, h2]
  obtain ⟨p, _⟩ := D.facts hx
  refine ⟨i, _, D.entries i x hx, ?_, ?_, ?_⟩
  · intro j f hj hf
    have hi := (List.getElem?_eq_some_iff.mp hx).1
    have hy := List.getElem?_eq_getElem (show j < (sysStarts 4 fs).length by omega)
    rw [D.entries j _ hy] at hf
    injection hf with hf
    subst hf
    rcases (D.facts hy).1.flag with h | h <;> rw [h] <;> simp
  · show x.2.flag.toNat.testBit 6 = true
    rcases p.flag with h | h <;> rw [h] <;> decide
  · refine slice_entry ?_
    have := p.base.1
    have := p.ext.1
    simp [dosName]; omega

/-- **C119 (refuted), what DOS finds afterwards.** After any file was added, the computer still starts from the disk
(`C119_boots`), but DOS does not find any more those of its own files whose names have less than eight characters or whose
extensions have less than three, `DUP.SYS` and `AUTORUN.SYS` among them. -/
theorem C119_refuted_add {h b fs} (D : SystemDisk h b fs) {m m' : AImg} (ho : AImg.open b = .ok m) {name data : Bytes}
    (h0 : (0 : UInt8) ∉ name) (hnew : ∀ f ∈ fs, f.filename ≠ norm83 name) (hslot : fs.length < 64) (hne : data ≠ [])
    (hw : AImg.writeFile name data m = (.ok (), m')) {i : Nat} {x : Nat × SysFile} (hx : (sysStarts 4 fs)[i]? = some x)
    (hs : x.2.base.length < 8 ∨ x.2.ext.length < 3) : m.DosHas x.2.base x.2.ext ∧ ¬ m'.DosHas x.2.base x.2.ext := by
  obtain ⟨hm, _, _, h3⟩ := D.opened ho
  refine ⟨C119_found D ho hx, ?_⟩
  refine (C113_refuted_add hm h0 ?_ ?_ hne hw (D.listed ho hx) hs).2
  · unfold AImg.names
    rw [h3]
    intro hc
    obtain ⟨d, hd, he⟩ := List.mem_map.mp hc
    obtain ⟨j, hj⟩ := List.getElem?_of_mem hd
    rw [sysDir_get] at hj
    cases hy : (sysStarts 4 fs)[j]? with
    | none => rw [hy] at hj; simp at hj
    | some y =>
      rw [hy] at hj
      injection hj with hj
      subst hj
      refine hnew y.2 ?_ he
      rw [← map_sysStarts fs 4]
      exact List.mem_map_of_mem (List.mem_of_getElem? hy)
  · rw [h3]
    unfold sysDir
    rw [List.length_mapIdx, length_sysStarts]
    exact hslot

/-- **C119 (refuted), removing.** The same after removing a file. -/
theorem C119_refuted_remove {h b fs} (D : SystemDisk h b fs) {m m' : AImg} (ho : AImg.open b = .ok m) {f : SysFile} (hf : f ∈ fs)
    (hw : AImg.deleteFile f.filename m = (.ok (), m')) {i : Nat} {x : Nat × SysFile} (hx : (sysStarts 4 fs)[i]? = some x)
    (hn : x.2.filename ≠ f.filename) (hs : x.2.base.length < 8 ∨ x.2.ext.length < 3) :
    m.DosHas x.2.base x.2.ext ∧ ¬ m'.DosHas x.2.base x.2.ext := by
  obtain ⟨hm, _, _, _⟩ := D.opened ho
  refine ⟨C119_found D ho hx, ?_⟩
  refine (C113_refuted_remove hm ?_ hw (D.listed ho hx) hn hs).2
  rw [← map_sysStarts fs 4] at hf
  obtain ⟨y, hy, rfl⟩ := List.mem_map.mp hf
  obtain ⟨j, hj⟩ := List.getElem?_of_mem hy
  exact List.mem_map.mpr ⟨_, D.listed ho hj, rfl⟩

/-! ### an example -/

/-- the files of `dos2sd+2.0s.atr` -/
def dos20s : List SysFile :=
  [⟨0x42, [0x44, 0x4f, 0x53], [0x53, 0x59, 0x53], 39, 125⟩, ⟨0x42, [0x44, 0x55, 0x50], [0x53, 0x59, 0x53], 42, 1⟩,
   ⟨0x42, [0x41, 0x55, 0x54, 0x4f, 0x52, 0x55, 0x4e], [0x53, 0x59, 0x53], 1, 88⟩]

/-- sectors 4 to 85 with the links of these files -/
def dos20sSectors : List Bytes :=
  (sysStarts 4 dos20s).zipIdx.flatMap fun y => (List.range y.1.2.count).map fun k =>
    List.replicate 125 (UInt8.ofNat k) ++
      [UInt8.ofNat (4 * y.2 + y.1.2.next y.1.1 k / 256), UInt8.ofNat (y.1.2.next y.1.1 k), UInt8.ofNat (y.1.2.used k)]

/-- the entries -/
def dos20sDir : Bytes :=
  (sysStarts 4 dos20s).flatMap fun x => x.2.flag :: (enc16 x.2.count ++ enc16 x.1 ++ dosName x.2.base x.2.ext)

/-- a disk with these files: sector `s + 1` -/
def dos20sSec (s : Nat) : Bytes :=
  if s = 359 then
    sec128 ([2, 0xc3, 2, 0x71, 2, 0, 0, 0, 0, 0] ++ List.replicate 10 0 ++ [3] ++ List.replicate 34 0xff ++ [0, 0x7f] ++ List.replicate 43 0xff)
  else if s = 360 then sec128 dos20sDir
  else if 3 ≤ s ∧ s < 85 then dos20sSectors.getD (s - 3) []
  else List.replicate 128 0

theorem dos20s_disk : ∃ b, SystemDisk xfdHeader b dos20s := by
  have hlen : ∀ s, (dos20sSec s).length = 128 := by
    intro s
    unfold dos20sSec
    split
    · decide +kernel
    · split
      · decide +kernel
      · split
        · rename_i h
          have : ∀ k < 82, (dos20sSectors.getD k []).length = 128 := by decide +kernel
          exact this _ (by omega)
        · simp
  obtain ⟨b, hbl, ho, hs⟩ := xfd_of hlen (by decide +kernel)
  have g := openHeader_geom ho
  have hsec : ∀ s, 4 ≤ s → s ≤ 720 → sec xfdHeader b s = dos20sSec (s - 1) := by
    intro s h1 h2
    rw [← hs s (by omega) h2, sec]
    unfold sectorBytes
    rw [AHeader.getPos_data g (by show 0 < s; omega) (by show s ≤ 720; omega)]
  have hraw : rawEntries xfdHeader b = chunks 16 ((List.range' 361 8).flatMap fun s => dos20sSec (s - 1)) := by
    unfold rawEntries
    rw [slice_sectors g 8 361 (by decide) (by decide), List.flatMap_def, List.flatMap_def]
    congr 2
    apply List.map_congr_left
    intro s hm
    have := List.mem_range'_1.mp hm
    exact hsec s (by omega) (by omega)
  have hbit : ∀ s, s < 720 → ((unpackbits (slice (dos20sSec 359) 10 100))[s]? = some true ↔ 86 ≤ s ∧ s < 720 ∧ ¬ (360 ≤ s ∧ s ≤ 368)) := by
    decide +kernel
  have hlinks : ∀ i < 3, ∀ k < ((sysStarts 4 dos20s).getD i (0, ⟨0, [], [], 0, 0⟩)).2.count,
      (fun x : Nat × SysFile => slice (dos20sSec (x.1 + k - 1)) 125 128 =
        [UInt8.ofNat (4 * i + x.2.next x.1 k / 256), UInt8.ofNat (x.2.next x.1 k), UInt8.ofNat (x.2.used k)])
          ((sysStarts 4 dos20s).getD i (0, ⟨0, [], [], 0, 0⟩)) := by decide +kernel
  have hent : ∀ i < 3, (chunks 16 ((List.range' 361 8).flatMap fun s => dos20sSec (s - 1)))[i]? =
      (fun x : Nat × SysFile => some (x.2.flag :: (enc16 x.2.count ++ enc16 x.1 ++ dosName x.2.base x.2.ext)))
        ((sysStarts 4 dos20s).getD i (0, ⟨0, [], [], 0, 0⟩)) := by decide +kernel
  have hun : ∀ e ∈ (chunks 16 ((List.range' 361 8).flatMap fun s => dos20sSec (s - 1))).drop 3, e.head? = some 0 := by decide +kernel
  have hget : ∀ {i : Nat} {x : Nat × SysFile}, (sysStarts 4 dos20s)[i]? = some x →
      i < 3 ∧ (sysStarts 4 dos20s).getD i (0, ⟨0, [], [], 0, 0⟩) = x := by
    intro i x hx
    refine ⟨(List.getElem?_eq_some_iff.mp hx).1, ?_⟩
    rw [List.getD_eq_getElem?_getD, hx]
    rfl
  refine ⟨b, { opens := ho, sectorSize := rfl, size := by decide, ed := fun he => absurd he (by decide), vtocCode := ?_, bitmap := ?_,
               room := by decide, slots := by decide, plain := ?_, names := by decide, entries := ?_, unused := ?_, links := ?_ }⟩
  · rw [hsec 360 (by omega) (by omega)]; decide +kernel
  · intro s
    show IsFree xfdHeader b s ↔ 86 ≤ s ∧ s < 720 ∧ ¬ (360 ≤ s ∧ s ≤ 368)
    unfold IsFree freeMap
    rw [hsec 360 (by omega) (by omega)]
    by_cases h : s < 720
    · exact hbit s h
    · rw [List.getElem?_eq_none (by rw [length_unpackbits, length_slice, hlen]; omega)]
      constructor
      · intro hc; cases hc
      · intro hc; omega
  · intro f hf
    simp only [dos20s, List.mem_cons, List.not_mem_nil, or_false] at hf
    rcases hf with rfl | rfl | rfl <;>
      exact ⟨by decide, by decide, by decide, by decide, by decide⟩
  · intro i x hx
    obtain ⟨hi, hxe⟩ := hget hx
    have := hent i hi
    rw [hxe] at this
    rw [hraw]
    exact this
  · intro i e hi he
    rw [hraw] at he
    refine hun e (List.mem_of_getElem? (i := i - 3) ?_)
    have hi3 : 3 ≤ i := hi
    rw [List.getElem?_drop, show 3 + (i - 3) = i by omega]
    exact he
  · intro i x hx k hk
    obtain ⟨hi, hxe⟩ := hget hx
    have := hlinks i hi k (by rw [hxe]; exact hk)
    rw [hxe] at this
    obtain ⟨b1, b2⟩ := sysStarts_bounds dos20s 4 i x hx
    have b3 : sysEnd 4 dos20s = 86 := by decide
    rw [hsec _ (by omega) (by omega)]
    exact this

/-- DOS 2.0s on a disk: 625 sectors are free; after `A` was added, `DOS.SYS` is still read in full, and DOS does not find
`DUP.SYS` any more -/
example : ∃ b m m', SystemDisk xfdHeader b dos20s ∧ (freePool xfdHeader b).length = 625 ∧ AImg.open b = .ok m ∧
    AImg.writeFile nameA dataA m = (.ok (), m') ∧ (∃ c, c.length = 4875 ∧ m'.findFile [0x44, 0x4f, 0x53, 0x2e, 0x53, 0x59, 0x53] = .ok c) ∧
    m.DosHas [0x44, 0x55, 0x50] [0x53, 0x59, 0x53] ∧ ¬ m'.DosHas [0x44, 0x55, 0x50] [0x53, 0x59, 0x53] := by
  obtain ⟨b, D⟩ := dos20s_disk
  have ho := open_eq D.consistent.toLoose
  obtain ⟨hm, h1, h2, h3⟩ := D.opened ho
  have hpool : (freePool xfdHeader b).length = 625 := (C119_holds D).2
  have hx0 : (sysStarts 4 dos20s)[0]? = some (4, ⟨0x42, [0x44, 0x4f, 0x53], [0x53, 0x59, 0x53], 39, 125⟩) := rfl
  have hx1 : (sysStarts 4 dos20s)[1]? = some (43, ⟨0x42, [0x44, 0x55, 0x50], [0x53, 0x59, 0x53], 42, 1⟩) := rfl
  have hnew : ∀ f ∈ dos20s, f.filename ≠ norm83 nameA := by decide
  have hnm : norm83 nameA ∉ (mountRec xfdHeader b (sysDir dos20s)).files.map ADirent.filename := by rw [h3]; decide
  have hsl : (mountRec xfdHeader b (sysDir dos20s)).files.length < 64 := by rw [h3]; decide
  obtain ⟨m', ds', _, _, _, _, hw, hm', hh, _⟩ := mounted_write hm (name := nameA) (data := dataA) dataA_ne canonA.2 hsl hnm (by
    rw [h1, h2, hpool, pieces_length D.consistent.toLoose, D.sectorSize, dataA_length]; decide)
  obtain ⟨f1, f2⟩ := C119_refuted_add D ho canonA.2 hnew (by decide) dataA_ne hw hx1 (Or.inl (by decide))
  refine ⟨b, _, m', D, hpool, ho, hw, ?_, f1, f2⟩
  have hr : ReachBut ([0x44, 0x4f, 0x53, 0x2e, 0x53, 0x59, 0x53] : Bytes) (mountRec xfdHeader b (sysDir dos20s)) m' := by
    have := ReachBut.step (keep := [0x44, 0x4f, 0x53, 0x2e, 0x53, 0x59, 0x53]) (.write nameA dataA)
      (ReachBut.start (m := mountRec xfdHeader b (sysDir dos20s))) ⟨dataA_ne, canonA.2, hsl, hnm⟩ (fun h => by cases h)
    rwa [show (Op.run (.write nameA dataA) (mountRec xfdHeader b (sysDir dos20s))).2 = m' from congrArg Prod.snd hw] at this
  obtain ⟨_, d, d1, d2, _, _, d3⟩ := C119_boots D ho hx0 hr
  refine ⟨sysData xfdHeader b (4, ⟨0x42, [0x44, 0x4f, 0x53], [0x53, 0x59, 0x53], 39, 125⟩), ?_, ?_⟩
  · have g := openHeader_geom D.opens
    unfold sysData
    rw [List.length_flatMap]
    have : (List.range 39).map (fun k => ((sec xfdHeader b (4 + k)).take
        (SysFile.used ⟨0x42, [0x44, 0x4f, 0x53], [0x53, 0x59, 0x53], 39, 125⟩ k)).length) = (List.range 39).map fun _ => 125 := by
      apply List.map_congr_left
      intro k hk
      have hk := List.mem_range.mp hk
      have hu : SysFile.used ⟨0x42, [0x44, 0x4f, 0x53], [0x53, 0x59, 0x53], 39, 125⟩ k = 125 := by
        unfold SysFile.used; split <;> rfl
      rw [List.length_take, hu, length_sec g ⟨by show 0 < 4 + k; omega, by show 4 + k ≤ 720; omega⟩]
      rfl
    rw [this]
    decide
  · refine mounted_find hm' (List.mem_map.mpr ⟨d, d1, ?_⟩)
    rw [d2, d3]
    rfl

end Atr
