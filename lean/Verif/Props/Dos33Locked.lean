import Verif.Props.Dos33Compact

/-! # C94 continued: deleting a file loses a locked text file -/

namespace Atr

/-- a catalog sector with the entries `A` (binary, list in sector 17) and `T` (text, locked, list in sector 19), linked to sector 286 -/
def txtCat : Bytes := [0, 17, 14] ++ List.replicate 8 0 ++ ([1, 1, 4, 0xc1] ++ List.replicate 29 0xa0 ++ [2, 0]) ++
  ([1, 3, 0x80, 0xd4] ++ List.replicate 29 0xa0 ++ [2, 0]) ++ List.replicate 175 0

/-- the sectors of the disk -/
def txtSec (s : Nat) : Bytes :=
  if s = 272 then vtocBlank33 else if s = 287 then txtCat
  else if s = 17 then List.replicate 12 0 ++ [1, 2] ++ List.replicate 242 0
  else if s = 19 then List.replicate 12 0 ++ [1, 4] ++ List.replicate 242 0
  else List.replicate 256 0

theorem txtSec_length (s : Nat) : (txtSec s).length = 256 := by
  unfold txtSec
  split
  · exact vtocBlank33_length
  split
  · decide +kernel
  split
  · decide +kernel
  split
  · decide +kernel
  · exact List.length_replicate

def txtDisk : Bytes := imgOf33 txtSec

theorem txtDisk_length : txtDisk.length = 143360 := imgOf33_length txtSec_length

theorem txtDisk_sec {s : Nat} (h : s < 560) : sec33 txtDisk s = txtSec s := sec33_flatMap txtSec_length h

attribute [local irreducible] txtDisk

theorem txtDisk_byte {s i : Nat} (hs : s < 560) (hi : i < 256) : secByte33 txtDisk s i = ((txtSec s).getD i 0).toNat := by
  unfold secByte33
  rw [← getD_sec33 hi, txtDisk_sec hs]

theorem txtDisk_pair {s i : Nat} (hs : s < 560) (hi : i < 255) : pairAt33 txtDisk s i = 16 * ((txtSec s).getD i 0).toNat + ((txtSec s).getD (i + 1) 0).toNat := by
  unfold pairAt33
  rw [txtDisk_byte hs (by omega), txtDisk_byte hs (by omega)]

theorem txtDisk_seen : catSeen33 txtDisk [287, 286] = [73483, 73518] := by
  unfold catSeen33
  rw [List.flatMap_cons, List.flatMap_cons, List.flatMap_nil, List.append_nil, seenEntries33_eq, seenEntries33_eq,
    txtDisk_sec (by omega), txtDisk_sec (by omega)]
  decide +kernel

theorem txtDisk_at {s p i j : Nat} (hs : s < 560) (hp : p = 256 * s + i) (h : i + j < 256) : byteOf txtDisk (p + j) = ((txtSec s).getD (i + j) 0).toNat := by
  have := txtDisk_byte (s := s) (i := i + j) hs (by omega)
  unfold secByte33 at this
  unfold byteOf
  rw [hp, show 256 * s + i + j = 256 * s + (i + j) by omega, this]

theorem txtDisk_sectors : sectors33 txtDisk = 560 := by
  unfold sectors33; rw [txtDisk_byte (by omega) (by omega), txtDisk_byte (by omega) (by omega)]; decide +kernel

theorem txtDisk_info {s p i : Nat} (hs : s < 560) (hp : p = 256 * s + i) (hi : i + 34 < 256) : fileInfo33 txtDisk p = fileInfo33 (txtSec s) i := by
  have hsl : slice txtDisk (p + 3) (p + 32) = slice (txtSec s) (i + 3) (i + 32) := by
    rw [← txtDisk_sec hs]
    unfold sec33
    rw [slice_slice, hp]
    congr 1
    omega
  have h0 := txtDisk_at (j := 0) hs hp (by omega)
  rw [Nat.add_zero] at h0
  unfold fileInfo33
  rw [hsl, h0, txtDisk_at hs hp (by omega), txtDisk_at hs hp (by omega), txtDisk_at hs hp (by omega), txtDisk_at hs hp (by omega)]
  rfl

theorem txtDisk_infoA : fileInfo33 txtDisk 73483 = ⟨[0x41], 4, false, 17, 2, 1⟩ := by
  rw [txtDisk_info (s := 287) (i := 11) (by omega) (by omega) (by omega)]; decide +kernel

theorem txtDisk_infoT : fileInfo33 txtDisk 73518 = ⟨[0x54], 0, true, 19, 2, 1⟩ := by
  rw [txtDisk_info (s := 287) (i := 46) (by omega) (by omega) (by omega)]; decide +kernel

theorem txtDisk_live : byteOf txtDisk 73483 = 1 ∧ byteOf txtDisk 73518 = 1 :=
  ⟨congrArg FileInfo33.track txtDisk_infoA, congrArg FileInfo33.track txtDisk_infoT⟩

theorem txtDisk_volume : Volume33 txtDisk [287, 286] := by
  have h2 : pairAt33 txtDisk 272 1 = 287 := by rw [txtDisk_pair (by omega) (by omega)]; decide +kernel
  have h3 := txtDisk_sectors
  refine ⟨txtDisk_length, ⟨?_, fun _ => ?_⟩, by rw [h2, h3]; omega, ?_, ?_⟩
  · have h : txtDisk.take 4 = (txtSec 0).take 4 := by
      rw [← txtDisk_sec (by omega)]
      simp [sec33, slice, List.take_take]
    rw [h]
    decide +kernel
  · rw [txtDisk_byte (by omega) (by omega), txtDisk_byte (by omega) (by omega)]; decide +kernel
  · rw [h2, h3]
    refine .next (by omega) (by omega) (by omega) ?_
    rw [txtDisk_pair (by omega) (by omega), show 16 * ((txtSec 287).getD 1 0).toNat + ((txtSec 287).getD (1 + 1) 0).toNat = 286 by decide +kernel]
    refine .next (by omega) (by omega) (by omega) ?_
    rw [txtDisk_pair (by omega) (by omega), show 16 * ((txtSec 286).getD 1 0).toNat + ((txtSec 286).getD (1 + 1) 0).toNat = 0 by decide +kernel]
    exact .done
  · intro p hp
    have : p ∈ catSeen33 txtDisk [287, 286] := hp
    rw [txtDisk_seen] at this
    rw [h3]
    right
    have key : ∀ f : FileInfo33, fileInfo33 txtDisk p = f → f.track ≠ 0 ∧ f.first < 560 ∧ f.sectors ≤ 560 →
        byteOf txtDisk p ≠ 0 ∧ 16 * byteOf txtDisk p + byteOf txtDisk (p + 1) < 560 ∧ byteOf txtDisk (p + 33) + 256 * byteOf txtDisk (p + 34) ≤ 560 := by
      rintro f rfl h
      exact h
    rcases List.mem_cons.mp this with rfl | this
    · exact key _ txtDisk_infoA (by decide)
    · rw [List.mem_singleton.mp this]
      rw [List.mem_singleton.mp this] at key
      exact key _ txtDisk_infoT (by decide)

theorem txtDisk_list : ListChain33 560 txtDisk 17 [17] := by
  refine .next (by omega) (by omega) ?_
  rw [txtDisk_pair (by omega) (by omega)]
  exact .done

theorem txtDisk_data : dataSectors33 txtDisk 2 [17] = [18] := by
  unfold dataSectors33
  rw [List.flatMap_cons, List.flatMap_nil, List.append_nil]
  show (listPairs33 txtDisk 17).take 1 = [18]
  unfold listPairs33
  show [pairAt33 txtDisk 17 (12 + 2 * 0)] = [18]
  rw [txtDisk_pair (by omega) (by omega)]
  decide +kernel

/-- **C94 as a promise is false** (deleting one file leaves the others alone): there is a disk with the files `A` and `T`, `T` being a
locked text file, on which deleting `A` succeeds and leaves no file at all; the sectors of `T` stay in use. -/
theorem C94_refuted_others : ∃ (b : Bytes) (m m' : DImg), DImg.open b = .ok m ∧ m.names = [[0x41], [0x54]] ∧ ¬ IsFree33 b 19 ∧
    DImg.deleteFile [0x41] m = (.ok (), m') ∧ DImg.open m'.bytes = .ok m' ∧ m'.names = [] ∧ ¬ IsFree33 m'.bytes 19 := by
  obtain ⟨m, hm⟩ := C77_volume txtDisk_volume
  obtain ⟨lA, lT⟩ := txtDisk_live
  have hn := txtDisk_sectors
  obtain ⟨m', d1, d2, d3, _, d5, d6, d7, _⟩ := C94_delete_succeeds hm txtDisk_volume (by decide) hn (name := [0x41]) (pre := []) (post := [73518]) (p := 73483)
    txtDisk_seen (by rw [lA]; decide) (by rw [txtDisk_infoA]) (fun q hq => by cases hq)
    (ts := [17]) (by rw [txtDisk_infoA]; exact txtDisk_list) (by rw [txtDisk_infoA, txtDisk_data]; decide)
    (by rw [txtDisk_seen]; decide)
  rw [txtDisk_infoA] at d7
  have d7 : ∀ s, IsFree33 m'.bytes s ↔ IsFree33 txtDisk s ∨ s ∈ [17] ++ dataSectors33 txtDisk 2 [17] := d7
  rw [txtDisk_data] at d7
  have hused : ¬ IsFree33 txtDisk 19 := by
    intro hf
    unfold IsFree33 at hf
    rw [txtDisk_sec (by omega), show txtSec 272 = vtocBlank33 from rfl, vtocBlank33_free 19 (by omega)] at hf
    have := hf.2
    simp only [decide_eq_true_eq] at this
    omega
  have hT := C94_locked_text hm txtDisk_volume (by decide) hn d1 (t := 1) (p := 73518) (by rw [txtDisk_seen]; rfl) (by rw [lT]; decide)
    (by rw [txtDisk_infoT]) (by rw [txtDisk_infoT]; decide)
  have hslot : byteOf m'.bytes 73483 = 255 := by
    refine d5.slot 0 none ?_
    rw [txtDisk_seen]; rfl
  have hs286 : seenEntries33 m'.bytes 286 = [] := by
    rw [seenEntries33_eq, d5.later 1 286 (by rw [txtDisk_seen]; decide) rfl, txtDisk_sec (by omega)]
    decide +kernel
  have hs287 : seenEntries33 m'.bytes 287 = [73483] := by
    have h7 : lastEntry33 m'.bytes 73483 = false := by unfold lastEntry33; rw [hslot]; rfl
    have h8 : lastEntry33 m'.bytes 73518 = true := by
      cases hl : lastEntry33 m'.bytes 73518 with
      | true => rfl
      | false =>
        refine absurd ?_ (hT 1 (by omega) rfl)
        show 73518 ∈ catSeen33 m'.bytes [287, 286]
        refine List.mem_flatMap.mpr ⟨287, by simp, ?_⟩
        have he : entryPos33 287 = 73483 :: 73518 :: [73553, 73588, 73623, 73658, 73693] := by decide
        unfold seenEntries33
        rw [he, List.takeWhile_cons, if_pos (by simp [h7]), List.takeWhile_cons, if_pos (by simp [hl])]
        simp
    exact seen_sector (k := 1) (by omega) (fun i hi => by rw [show i = 0 by omega]; exact h7) (fun _ => h8)
  refine ⟨txtDisk, m, m', hm, ?_, hused, d1, d2, ?_, ?_⟩
  · rw [names_of_entries hm txtDisk_volume]
    unfold fileEntries33
    rw [show [287, 286].flatMap (seenEntries33 txtDisk) = [73483, 73518] from txtDisk_seen]
    rw [List.filter_cons, if_pos (by simp [lA]), List.filter_cons, if_pos (by simp [lT])]
    simp only [List.filter_nil, List.map_cons, List.map_nil]
    rw [txtDisk_infoA, txtDisk_infoT]
  · rw [names_of_entries d2 d3]
    unfold fileEntries33
    rw [List.flatMap_cons, List.flatMap_cons, List.flatMap_nil, hs286, hs287]
    simp [hslot]
  · rw [d7]
    rintro (h | h)
    · exact hused h
    · simp at h

end Atr
