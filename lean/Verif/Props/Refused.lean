import Verif.Props.Xex
import Verif.Props.Bsave
import Verif.Props.KBoot
import Verif.Props.Interleave
import Verif.Props.Assemble
import Verif.Props.Images
import Verif.Props.Dos33Files
import Verif.Props.Dos33Compact
/-!
# Which exception refuses what

Refinements of C17, C20, C21, C23, C30 and C63: not only when the functions fail but with which exception.
-/
namespace Atr

/-- C17: building fails with `InvalidBinaryFile` exactly if a run address other than 0 is given that lies in no segment, and with
`IndexError` exactly if there is neither a run address nor a segment; nothing else goes wrong -/
theorem C17_refused (segs : List Seg) (runAddr : Option Nat) (e : Err) :
    getXex segs runAddr = .error e ↔
      (∀ s ∈ segs, s.origin ≠ 0x2e0) ∧
        ((e = .invalidBinaryFile ∧ ∃ a, 0 < a ∧ runAddr = some a ∧ ∀ s ∈ segs, a < s.origin ∨ s.origin + s.data.length ≤ a) ∨
          (e = .indexError ∧ (runAddr = none ∨ runAddr = some 0) ∧ segs = [])) := by
  have hstep : getXex segs runAddr = .error e ↔ xexSegments segs runAddr = .error e := by
    unfold getXex
    cases xexSegments segs runAddr with
    | ok l => exact ⟨fun h => (nomatch h), fun h => (nomatch h)⟩
    | error e' => exact ⟨fun h => by rw [Except.error.inj h], fun h => by rw [Except.error.inj h]⟩
  rw [hstep]
  unfold xexSegments
  by_cases h : ∃ s ∈ segs, s.origin = 0x2e0
  · have h' : segs.any (fun s => s.origin == 0x2e0) = true := by simpa using h
    rw [if_pos h']
    constructor
    · intro x; cases x
    · rintro ⟨x, _⟩; obtain ⟨s, hs, ho⟩ := h; exact absurd ho (x s hs)
  · have h' : ¬ segs.any (fun s => s.origin == 0x2e0) = true := by simpa using h
    have hall : ∀ s ∈ segs, s.origin ≠ 0x2e0 := fun s hs ho => h ⟨s, hs, ho⟩
    rw [if_neg h']
    have none_case : (match segs with
        | [] => Except.error Err.indexError
        | s :: _ => Except.ok ((⟨0x2e0, enc16 s.origin⟩ : Seg) :: segs)) = .error e ↔ (e = .indexError ∧ segs = []) := by
      cases segs with
      | nil => exact ⟨fun x => ⟨(Except.error.inj x).symm, rfl⟩, fun x => by rw [x.1]⟩
      | cons s l => exact ⟨fun x => (nomatch x), fun x => (nomatch x.2)⟩
    rcases runAddr with _ | _ | a
    · refine none_case.trans ⟨fun x => ⟨hall, .inr ⟨x.1, .inl rfl, x.2⟩⟩, ?_⟩
      rintro ⟨_, ⟨_, a, _, h0, _⟩ | ⟨x, _, y⟩⟩
      · cases h0
      · exact ⟨x, y⟩
    · refine none_case.trans ⟨fun x => ⟨hall, .inr ⟨x.1, .inr rfl, x.2⟩⟩, ?_⟩
      rintro ⟨_, ⟨_, a, h1, h0, _⟩ | ⟨x, _, y⟩⟩
      · injection h0 with h0; omega
      · exact ⟨x, y⟩
    · simp only
      by_cases hin : segs.any (·.has (a + 1)) = true
      · rw [if_pos hin]
        constructor
        · intro x; cases x
        · rintro ⟨_, ⟨_, a', _, h0, hno⟩ | ⟨_, h0, _⟩⟩
          · injection h0 with h0
            obtain ⟨s, hs, hh⟩ := List.any_eq_true.mp hin
            have := hno s hs
            simp only [Seg.has, Bool.and_eq_true, decide_eq_true_eq] at hh
            omega
          · rcases h0 with h0 | h0
            · cases h0
            · injection h0 with h0; omega
      · rw [if_neg hin]
        constructor
        · intro x
          refine ⟨hall, .inl ⟨(Except.error.inj x).symm, a + 1, by omega, rfl, fun s hs => ?_⟩⟩
          by_cases hc : a + 1 < s.origin
          · exact .inl hc
          · right
            apply Nat.le_of_not_lt; intro hlt
            exact hin (List.any_eq_true.mpr ⟨s, hs, by simp [Seg.has]; omega⟩)
        · rintro ⟨_, ⟨he, _⟩ | ⟨_, h0, _⟩⟩
          · rw [he]
          · rcases h0 with h0 | h0
            · cases h0
            · injection h0 with h0; omega

/-- 0x7ff is the last byte of the segment, 0x800 is outside -/
example : getXex [⟨0x7fe, [1, 2]⟩] (some 0x800) = .error .invalidBinaryFile :=
  (C17_refused _ _ _).mpr ⟨by simp, .inl ⟨rfl, 0x800, by decide, rfl, by simp⟩⟩
example : getXex [] (some 0) = .error .indexError := (C17_refused _ _ _).mpr ⟨by simp, .inr ⟨rfl, .inr rfl, rfl⟩⟩

/-- C20: a file is an Apple binary exactly if it has four bytes whose last two hold the number of the bytes after them; everything else
is refused with `InvalidBinaryFile` -/
theorem C20_refused (b : Bytes) :
    (4 ≤ b.length ∧ (b.getD 2 0).toNat + 256 * (b.getD 3 0).toNat = b.length - 4 ∧
      parseBsave b = .ok ⟨(b.getD 0 0).toNat + 256 * (b.getD 1 0).toNat, b.drop 4⟩) ∨
    ((b.length < 4 ∨ (b.getD 2 0).toNat + 256 * (b.getD 3 0).toNat ≠ b.length - 4) ∧ parseBsave b = .error .invalidBinaryFile) := by
  match b with
  | [] => exact .inr ⟨.inl (by simp), rfl⟩
  | [_] => exact .inr ⟨.inl (by simp), rfl⟩
  | [_, _] => exact .inr ⟨.inl (by simp), rfl⟩
  | [_, _, _] => exact .inr ⟨.inl (by simp), rfl⟩
  | a0 :: a1 :: c0 :: c1 :: d =>
    have hlen : (a0 :: a1 :: c0 :: c1 :: d).length - 4 = d.length := by simp
    rw [hlen]
    by_cases hc : c0.toNat + 256 * c1.toNat = d.length
    · left
      refine ⟨by simp, hc, ?_⟩
      have hc' : le16 c0 c1 = d.length := by simpa [le16, Nat.mul_comm] using hc
      unfold parseBsave
      simp only [hlen, hc']
      rw [if_neg (by simp), if_pos (by simp)]
      simp [le16]
    · right
      refine ⟨.inr hc, ?_⟩
      have hc' : le16 c0 c1 ≠ d.length := by simpa [le16, Nat.mul_comm] using hc
      unfold parseBsave
      simp only [hlen]
      rw [if_pos hc']

example : parseBsave [0, 8, 2, 0, 1, 2] = .ok ⟨0x800, [1, 2]⟩ := by decide
/-- one byte too few, one too many -/
example : parseBsave [0, 8, 2, 0, 1] = .error .invalidBinaryFile ∧ parseBsave [0, 8, 2, 0, 1, 2, 3] = .error .invalidBinaryFile := by decide

/-- C23: an index outside a segment is only noticed in a reordered one (`IndexError`); a part answers with a position outside itself -/
theorem C23_outside {v : SegView} {i : Nat} (h : v.len ≤ i) :
    (∀ n idx, v = .order n idx → v.rawIndex i = .error .indexError) ∧
    (∀ n, v = .whole n → v.rawIndex i = .ok i) ∧
    (∀ n off k, v = .part n off k → v.rawIndex i = .ok (off + i)) := by
  refine ⟨?_, ?_, ?_⟩
  · rintro n idx rfl
    have : idx.length ≤ i := h
    simp [SegView.rawIndex, List.getElem?_eq_none this]
  · rintro n rfl; rfl
  · rintro n off k rfl; rfl

example : (SegView.order 9 [4, 2]).rawIndex 2 = .error .indexError ∧ (SegView.part 9 4 2).rawIndex 2 = .ok 6 := by decide

/-- C30: segments of different arrays are refused with `ValueError` (once the lengths have been found acceptable) -/
theorem C30_arrays {r : Raw} {rs : List Raw} {n : Nat} {junk : Nat → List Nat} {idx : List Nat}
    (hi : interleaveIndexes ((r :: rs).map Raw.view) n junk = .ok idx) :
    (∃ q ∈ rs, q.arr ≠ r.arr) ↔ interleaveSegments (r :: rs) n junk = .error .valueError := by
  unfold interleaveSegments
  rw [hi]
  simp only
  by_cases h : ∃ q ∈ rs, q.arr ≠ r.arr
  · have : ¬ (rs.all fun q => q.arr == r.arr) = true := by
      obtain ⟨q, hq, hne⟩ := h
      intro ha
      exact hne (by simpa using List.all_eq_true.mp ha q hq)
    rw [if_neg this]
    exact ⟨fun _ => rfl, fun _ => h⟩
  · have : (rs.all fun q => q.arr == r.arr) = true :=
      List.all_eq_true.mpr fun q hq => by
        by_cases hh : q.arr = r.arr
        · simp [hh]
        · exact absurd ⟨q, hq, hh⟩ h
    rw [if_pos this]
    exact ⟨fun x => absurd x h, fun x => nomatch x⟩

/-- C30: without segments there is nothing to interleave (`IndexError`), whatever the step -/
theorem C30_nothing (n : Nat) (junk : Nat → List Nat) : interleaveSegments [] n junk = .error .indexError := rfl

/-- C30: a step of 0 bytes is a division by zero -/
theorem C30_step_zero (r : Raw) (rs : List Raw) (junk : Nat → List Nat) : interleaveSegments (r :: rs) 0 junk = .error .zeroDivision := rfl

example : interleaveSegments [⟨0, .whole 2⟩, ⟨1, .whole 2⟩] 1 (fun n => List.replicate n 0) = .error .valueError :=
  (C30_arrays (idx := [0, 0, 1, 1]) rfl).mp ⟨⟨1, .whole 2⟩, by simp, by simp⟩

/-- C63: an object file whose run address segment has less than two bytes stops the assembly with `ValueError`; a complete one gives
its first word, whatever follows -/
theorem C63_run_piece {s : XSeg} (hk : s.kind = .run) :
    (s.data.length < 2 → s.asObj = .error .valueError) ∧
    (∀ lo hi rest, s.data = lo :: hi :: rest → s.asObj = .ok (.run (lo.toNat + 256 * hi.toNat))) := by
  unfold XSeg.asObj
  rw [if_pos hk]
  refine ⟨fun h => ?_, ?_⟩
  · match hd : s.data, h with
    | [], _ => rfl
    | [_], _ => rfl
    | _ :: _ :: _, h => simp at h; omega
  · rintro lo hi rest hd
    rw [hd]
    simp [le16]

/-- the only piece of the file says that it is the first byte of a run address -/
example : ∃ ps, parseXex [0xff, 0xff, 0xe0, 0x02, 0xe0, 0x02, 0x00] = .ok ps ∧ ps.map XSeg.asObj = [.error .valueError] := by
  refine ⟨_, rfl, ?_⟩
  decide

/-! ### clearing DOS 3.3 disks that claim more than 1280 sectors -/

theorem shredLoop33_index (fill : UInt8) (map : List Bool) : ∀ (is : List Nat) (m : DImg), (∃ i ∈ is, map.length ≤ i) →
    ∃ m', DImg.shredLoop fill map is m = (.error .indexError, m')
  | [], _, h => by obtain ⟨i, hi, _⟩ := h; cases hi
  | i :: is, m, h => by
    unfold DImg.shredLoop
    cases hc : map[i]? with
    | none => exact ⟨m, rfl⟩
    | some x =>
      have hlt : i < map.length := (List.getElem?_eq_some_iff.mp hc).1
      have : ∃ j ∈ is, map.length ≤ j := by
        obtain ⟨j, hj, hle⟩ := h
        rcases List.mem_cons.mp hj with rfl | hj
        · omega
        · exact ⟨j, hj, hle⟩
      cases x with
      | true => exact shredLoop33_index fill map is _ this
      | false => exact shredLoop33_index fill map is _ this

/-- C09: the sector map has 1280 entries; on a disk whose VTOC claims more sectors clearing runs over the end of the map (`IndexError`)
after having filled the free sectors in memory.  The command reports an error and the file stays as it was. -/
theorem C09_dos33_clear_large {b : Bytes} {m : DImg} (hm : DImg.open b = .ok m) (hmax : 1280 < m.maxSectors) :
    (∀ fill, ∃ m', DImg.shredBody fill m = (.error .indexError, m')) ∧
    ∀ t o, o.dryRun = false → ∃ e, Cmd.shred.run (dos33Driver t) o b = (.error e, b) := by
  have hbody : ∀ fill, ∃ m', DImg.shredBody fill m = (.error .indexError, m') := by
    intro fill
    unfold DImg.shredBody DImg.getVtocMap
    have : getSec33 m.maxSectors m.bytes 272 = .ok (sec33 m.bytes 272) := by unfold getSec33; rw [if_pos (by omega)]
    rw [this]
    simp only
    refine shredLoop33_index _ _ _ _ ⟨1280, List.mem_range.mpr hmax, ?_⟩
    rw [length_vtocMap33]; exact Nat.le_refl _
  refine ⟨hbody, fun t o ho => ?_⟩
  obtain ⟨m', h'⟩ := hbody 0
  have hsh : ∃ e m'', DImg.shred 0 m = (.error e, m'') := by
    unfold DImg.shred DImg.transaction
    rw [h']
    simp only
    generalize DImg.getMetadata _ = r
    obtain ⟨r1, r2⟩ := r
    cases r1 with
    | error e => exact ⟨e, _, rfl⟩
    | ok _ => exact ⟨_, _, rfl⟩
  obtain ⟨e, m'', hs⟩ := hsh
  refine ⟨e, ?_⟩
  unfold Cmd.run
  rw [show (dos33Driver t).load b = .ok m from hm]
  simp only [Cmd.exec, ho]
  rw [show (dos33Driver t).shred m = (.error e, m'') from hs]
  rfl

/-- an empty disk with 50 tracks of 32 sectors in its VTOC -/
def wideSec (s : Nat) : Bytes := if s = 272 then splice vtocBlank33 0x34 [50, 32] else List.replicate 256 0

theorem wideSec_length (s : Nat) : (wideSec s).length = 256 := by
  unfold wideSec
  split
  · rw [length_splice _ _ _ (by rw [vtocBlank33_length]; decide)]; exact vtocBlank33_length
  · exact List.length_replicate

def wideDisk : Bytes := imgOf33 wideSec

theorem wideDisk_sec {s : Nat} (h : s < 560) : sec33 wideDisk s = wideSec s := sec33_flatMap wideSec_length h

attribute [local irreducible] wideDisk

theorem wideDisk_byte {s i : Nat} (hs : s < 560) (hi : i < 256) : secByte33 wideDisk s i = ((wideSec s).getD i 0).toNat := by
  unfold secByte33
  rw [← getD_sec33 hi, wideDisk_sec hs]

theorem wideDisk_pair {s i : Nat} (hs : s < 560) (hi : i < 255) :
    pairAt33 wideDisk s i = 16 * ((wideSec s).getD i 0).toNat + ((wideSec s).getD (i + 1) 0).toNat := by
  unfold pairAt33
  rw [wideDisk_byte hs (by omega), wideDisk_byte hs (by omega)]

theorem wideDisk_sectors : sectors33 wideDisk = 1600 := by
  unfold sectors33; rw [wideDisk_byte (by omega) (by omega), wideDisk_byte (by omega) (by omega)]; decide +kernel

theorem wideDisk_volume : Volume33 wideDisk [287] := by
  have h2 : pairAt33 wideDisk 272 1 = 287 := by rw [wideDisk_pair (by omega) (by omega)]; decide +kernel
  have h3 := wideDisk_sectors
  refine ⟨by unfold wideDisk; exact imgOf33_length wideSec_length, ⟨?_, fun _ => ?_⟩, by rw [h2, h3]; omega, ?_, ?_⟩
  · have h : wideDisk.take 4 = (wideSec 0).take 4 := by
      rw [← wideDisk_sec (by omega)]
      simp [sec33, slice, List.take_take]
    rw [h]
    decide +kernel
  · rw [wideDisk_byte (by omega) (by omega), wideDisk_byte (by omega) (by omega)]; decide +kernel
  · rw [h2, h3]
    refine .next (by omega) (by omega) (by omega) ?_
    rw [wideDisk_pair (by omega) (by omega), show 16 * ((wideSec 287).getD 1 0).toNat + ((wideSec 287).getD (1 + 1) 0).toNat = 0 by decide +kernel]
    exact .done
  · intro p hp
    have h0 : seenEntries33 wideDisk 287 = [] := by
      rw [seenEntries33_eq, wideDisk_sec (by omega)]
      decide +kernel
    rw [List.flatMap_cons, List.flatMap_nil, List.append_nil, h0] at hp
    cases hp

theorem open_wideDisk : ∃ m, DImg.open wideDisk = .ok m ∧ m.maxSectors = 1600 := by
  obtain ⟨m, hm⟩ := C77_volume wideDisk_volume
  obtain ⟨_, _, _, _, h, _⟩ := C77_opens _ _ hm
  exact ⟨m, hm, by rw [h, wideDisk_sectors]⟩

example : ∃ e, Cmd.shred.run (dos33Driver 'B') {} wideDisk = (.error e, wideDisk) := by
  obtain ⟨m, hm, hx⟩ := open_wideDisk
  exact (C09_dos33_clear_large hm (by omega)).2 'B' {} rfl

end Atr
