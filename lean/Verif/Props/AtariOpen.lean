import Verif.Spec.AtariOpen
import Verif.Lemmas.AtariMounted
import Verif.Props.Sparta
/-!
# C58: exactly which images open as Atari DOS volumes
-/
namespace Atr

theorem parse_of_length {h : AHeader} (num : Nat) {c : Bytes} (hc : 16 ≤ c.length) : ∃ d, ADirent.parse h num (c.take 16) = .ok d ∧
    (d.flag = c.getD 0 0) ∧ (d.inUse = (c.getD 0 0).toNat.testBit 6) ∧
    (d.isSane = true ↔ ((c.getD 0 0).toNat.testBit 6 = true → h.sectorIsValid (wordAt c 3) = true ∧ wordAt c 1 ≤ h.maxSectors)) := by
  match c, hc with
  | flag :: c0 :: c1 :: s0 :: s1 :: n0 :: n1 :: n2 :: n3 :: n4 :: n5 :: n6 :: n7 :: e0 :: e1 :: e2 :: r, _ =>
    refine ⟨_, rfl, rfl, rfl, ?_⟩
    show ADirent.sanityCheck h _ = true ↔ (flag.toNat.testBit 6 = true → h.sectorIsValid (le16 s0 s1) = true ∧ le16 c0 c1 ≤ h.maxSectors)
    unfold ADirent.sanityCheck
    simp only
    cases flag.toNat.testBit 6 with
    | false => simp
    | true =>
      cases hv : h.sectorIsValid (le16 s0 s1) <;> simp [hv]

theorem parse_short {h : AHeader} (num : Nat) {c : Bytes} (hc : c.length < 16) : ADirent.parse h num c = .error .valueError := by
  unfold ADirent.parse
  split
  · simp at hc
  · rfl

/-- scanning a directory succeeds with sane entries exactly if the directory is fine -/
theorem scanDir_fine {h : AHeader} {n : Nat} (g : h.Geom n) (dir : Bytes) : ∀ num,
    (∃ ds, scanDir h num (chunks 16 dir) = .ok ds ∧ (ds.filter (·.inUse)).all (·.isSane) = true) ↔ DirFine h.maxSectors dir := by
  induction dir using chunks_induction 16 (by omega) with
  | nil =>
    intro num
    rw [chunks_nil]
    exact ⟨fun _ => .full, fun _ => ⟨[], rfl, rfl⟩⟩
  | step c hc ih =>
    intro num
    rw [chunks_cons 16 (by omega) c hc, scanDir]
    by_cases hl : 16 ≤ c.length
    · obtain ⟨d, hd, h1, h2, h3⟩ := parse_of_length (h := h) num hl
      rw [hd]; simp only
      by_cases hz : c.getD 0 0 = 0
      · have : (!d.inUse && d.flag == 0) = true := by rw [h2, h1, hz]; decide
        rw [if_pos this]
        exact ⟨fun _ => .stop hl hz, fun _ => ⟨[], rfl, rfl⟩⟩
      · have : ¬ (!d.inUse && d.flag == 0) = true := by
          rw [h1]; intro hh
          rw [Bool.and_eq_true] at hh
          exact hz (by simpa using hh.2)
        rw [if_neg this]
        have hsane : d.isSane = true ↔ ((c.getD 0 0).toNat.testBit 6 = true → 1 ≤ wordAt c 3 ∧ wordAt c 3 ≤ h.maxSectors ∧ wordAt c 1 ≤ h.maxSectors) := by
          rw [h3, AHeader.sectorIsValid_iff g]
          constructor
          · intro x y; exact ⟨(x y).1.1, (x y).1.2, (x y).2⟩
          · intro x y; exact ⟨⟨(x y).1, (x y).2.1⟩, (x y).2.2⟩
        constructor
        · rintro ⟨ds, hs, ha⟩
          cases hr : scanDir h (num + 1) (chunks 16 (c.drop 16)) with
          | error e => rw [hr] at hs; cases hs
          | ok ds' =>
            rw [hr] at hs; injection hs with hs; subst hs
            have hrest : (ds'.filter (·.inUse)).all (·.isSane) = true := by
              rw [List.all_eq_true] at ha ⊢
              intro x hx
              rw [List.mem_filter] at hx
              exact ha x (List.mem_filter.mpr ⟨List.mem_cons_of_mem _ hx.1, hx.2⟩)
            refine .entry hl hz ?_ ((ih (num + 1)).mp ⟨ds', hr, hrest⟩)
            intro hb
            refine hsane.mp ?_ hb
            rw [List.all_eq_true] at ha
            exact ha d (List.mem_filter.mpr ⟨List.mem_cons_self, by rw [h2]; exact hb⟩)
        · intro hf
          cases hf with
          | full => exact absurd rfl hc
          | stop _ h0 => exact absurd h0 hz
          | entry _ _ hb hf =>
            obtain ⟨ds', hr, hrest⟩ := (ih (num + 1)).mpr hf
            rw [hr]
            refine ⟨_, rfl, ?_⟩
            rw [List.all_eq_true] at hrest ⊢
            intro x hx
            rw [List.mem_filter] at hx
            rcases List.mem_cons.mp hx.1 with rfl | hm
            · exact hsane.mpr hb
            · exact hrest x (List.mem_filter.mpr ⟨hm, hx.2⟩)
    · rw [parse_short num (by rw [List.length_take]; omega)]
      constructor
      · rintro ⟨ds, hs, _⟩; cases hs
      · intro hf
        cases hf with
        | full => exact absurd rfl hc
        | stop h0 _ => exact absurd h0 hl
        | entry h0 _ _ _ => exact absurd h0 hl

/-- what opening requires of the VTOC sector and of the second VTOC of enhanced density disks -/
def VtocFine (h : AHeader) (b : Bytes) : Prop :=
  5 ≤ h.sectorSize ∧ ((sectorBytes h b 360).getD 0 0 = 0 ∨ (sectorBytes h b 360).getD 0 0 = 2) ∧
    (h.imageSize = 133120 → 1024 ≤ h.maxSectors ∧ 124 ≤ h.sectorSize)

theorem sectorBytes_data {h : AHeader} {b : Bytes} {n s : Nat} (g : h.Geom n) (d : h.DataSec s) : sectorBytes h b s = sec h b s := by
  rw [sectorBytes_eq (AHeader.getPos_data g d.1 d.2)]; rfl

theorem calcVtocCode_zero (m : AImg) (h0 : m.total = 0) : m.calcVtocCode = 2 := by
  unfold AImg.calcVtocCode
  rw [h0]
  by_cases hs : m.hdr.sectorSize = 128
  · rw [hs]; decide
  · simp [hs]

theorem getSectors_invalid {h : AHeader} {b : Bytes} {n s : Nat} (g : h.Geom n) (hs : ¬ (1 ≤ s ∧ s ≤ h.maxSectors)) :
    h.getSectors b s s = .error .byteNotInFile := by
  rw [getSectors_one_eq, getPos_error g hs]

theorem dataSec_big {h : AHeader} {n s : Nat} (g : h.Geom n) (h1 : 4 ≤ s) (h2 : s ≤ h.maxSectors) : h.DataSec s := by
  refine ⟨?_, h2⟩
  rcases g.inits with gi | gi <;> omega

/-- reading the VTOC of an image that is being opened -/
theorem getVtoc_iff {h : AHeader} {b : Bytes} (g : h.Geom b.length) (hmax : 360 ≤ h.maxSectors) :
    (∃ m, AImg.getVtoc { hdr := h, bytes := b } = (.ok (), m)) ↔ VtocFine h b := by
  have hd := dataSec_big g (s := 360) (by omega) hmax
  have hl : (sectorBytes h b 360).length = h.sectorSize := by rw [sectorBytes_data g hd, length_sec g hd]
  unfold AImg.getVtoc VtocFine
  simp only
  rw [getSectors_valid g (by omega) hmax]
  simp only
  generalize hv : sectorBytes h b 360 = v at hl
  by_cases h5 : 5 ≤ h.sectorSize
  · match v, hl with
    | [], hl => simp at hl; omega
    | [_], hl => simp at hl; omega
    | [_, _], hl => simp at hl; omega
    | [_, _, _], hl => simp at hl; omega
    | [_, _, _, _], hl => simp at hl; omega
    | code :: t0 :: t1 :: u0 :: u1 :: r, hl =>
      have hsl : slice (code :: t0 :: t1 :: u0 :: u1 :: r) 0 5 = [code, t0, t1, u0, u1] := by simp [slice]
      rw [hsl]
      simp only [List.getD_cons_zero]
      have hcode : (code = 0 ∨ code = 2) ↔ (code.toNat = 0 ∨ code.toNat = 2) := by
        constructor
        · rintro (rfl | rfl) <;> decide
        · rintro (hc | hc)
          · left; exact UInt8.toNat_inj.mp hc
          · right; exact UInt8.toNat_inj.mp hc
      rw [hcode]
      by_cases hc : code.toNat = 0 ∨ code.toNat = 2
      · rw [if_pos hc]
        have hval : h.sectorIsValid 360 = true := (AHeader.sectorIsValid_iff g 360).mpr ⟨by omega, hmax⟩
        rw [if_neg (show ¬ ((360 : Int) - 1 + 1 < 0 ∨ (!h.sectorIsValid ((360 : Int) - 1 + 1).toNat) = true) by
          rintro (hx | hx)
          · omega
          · rw [show ((360 : Int) - 1 + 1).toNat = 360 by decide, hval] at hx; cases hx)]
        rw [if_neg (show ¬ ((1 : Int) < 0 ∨ (1 : Int) > _) by
          rw [calcVtocCode_zero _ rfl]; omega)]
        by_cases he : h.imageSize = 133120
        · rw [if_pos he]
          simp only [h5, hc, he, true_and, forall_const]
          by_cases h1024 : 1024 ≤ h.maxSectors
          · rw [getSectors_valid g (by omega) h1024]
            have hd2 := dataSec_big g (s := 1024) (by omega) h1024
            have hl2 : (sectorBytes h b 1024).length = h.sectorSize := by rw [sectorBytes_data g hd2, length_sec g hd2]
            generalize sectorBytes h b 1024 = w at hl2
            have hls : (slice w 122 124).length = min 124 h.sectorSize - 122 := by rw [length_slice, hl2]
            simp only
            generalize slice w 122 124 = x at hls
            match x, hls with
            | [x0, x1], hls => simp only [List.length_cons, List.length_nil] at hls; exact ⟨fun _ => ⟨h1024, by omega⟩, fun _ => ⟨_, rfl⟩⟩
            | [], hls =>
              simp only [List.length_nil] at hls
              constructor
              · rintro ⟨m, hm⟩; cases hm
              · intro hx; omega
            | [_], hls =>
              simp only [List.length_cons, List.length_nil] at hls
              constructor
              · rintro ⟨m, hm⟩; cases hm
              · intro hx; omega
            | _ :: _ :: _ :: _, hls => simp at hls; omega
          · rw [getSectors_invalid g (by omega)]
            constructor
            · rintro ⟨m, hm⟩; cases hm
            · intro hx; exact absurd hx.1 h1024
        · rw [if_neg he]
          exact ⟨fun _ => ⟨h5, hc, fun hx => absurd hx he⟩, fun _ => ⟨_, rfl⟩⟩
      · rw [if_neg hc]
        constructor
        · rintro ⟨m, hm⟩
          exfalso
          split at hm
          · cases hm
          · rw [if_pos (by rw [calcVtocCode_zero _ rfl]; omega)] at hm
            cases hm
        · intro hx; exact absurd hx.2.1 hc
  · constructor
    · rintro ⟨m, hm⟩
      exfalso
      have : (slice v 0 5).length < 5 := by rw [length_slice]; omega
      generalize slice v 0 5 = x at this hm
      split at hm
      · simp at this
      · cases hm
    · intro hx; exact absurd hx.1 h5

theorem getVtoc_keeps {m m' : AImg} {r} (hg : AImg.getVtoc m = (r, m')) : m'.hdr = m.hdr ∧ m'.bytes = m.bytes ∧ m'.allSane = m.allSane := by
  unfold AImg.getVtoc at hg
  simp only at hg
  repeat' split at hg
  all_goals
    injection hg with _ hg; subst hg; exact ⟨rfl, rfl, rfl⟩

/-- the directory of a disk: sectors 361 to 368 -/
def dirBytes (h : AHeader) (b : Bytes) : Bytes := (List.range' 361 8).flatMap (sectorBytes h b)

theorem getSectors_range {h : AHeader} {b : Bytes} (g : h.Geom b.length) (hmax : 368 ≤ h.maxSectors) :
    h.getSectors b 361 368 = .ok (dirBytes h b) := by
  have hd : ∀ s, 361 ≤ s → s ≤ 368 → h.DataSec s := fun s h1 h2 => dataSec_big g (by omega) (by omega)
  have hn := (hd 361 (by omega) (by omega)).1
  rw [getSectors_eq g hn (by omega) hmax]
  have hpos : ∀ i, i < 8 → h.dpos (361 + i) = h.dpos 361 + i * h.sectorSize := by
    intro i _
    unfold AHeader.dpos
    rw [show 361 + i - 1 - h.numInitialSectors = (361 - 1 - h.numInitialSectors) + i by omega, Nat.add_mul]
    omega
  have hfit := (hd 368 (by omega) (by omega)).fit g
  have key : ∀ k, k ≤ 8 → (List.range' 361 k).flatMap (sectorBytes h b) = slice b (h.dpos 361) (h.dpos 361 + k * h.sectorSize) := by
    intro k
    induction k with
    | zero => intro _; simp [slice]
    | succ k ih =>
      intro hk
      rw [List.range'_concat, List.flatMap_append, ih (by omega), List.flatMap_cons, List.flatMap_nil, List.append_nil, Nat.one_mul,
        sectorBytes_data g (hd (361 + k) (by omega) (by omega)), sec, hpos k (by omega)]
      have h8 : h.dpos 368 = h.dpos 361 + 7 * h.sectorSize := hpos 7 (by omega)
      have : (k + 1) * h.sectorSize = k * h.sectorSize + h.sectorSize := by rw [Nat.add_mul, Nat.one_mul]
      have : k * h.sectorSize ≤ 7 * h.sectorSize := Nat.mul_le_mul_right _ (by omega)
      rw [slice_append_slice _ _ _ _ (by omega) (by omega) (by omega)]
      congr 1; omega
  unfold dirBytes
  rw [key 8 (by omega)]

theorem getSectors_361 {h : AHeader} {b : Bytes} (g : h.Geom b.length) (hmax : ¬ 368 ≤ h.maxSectors) :
    ∃ e, h.getSectors b 361 368 = .error e := by
  cases hg : h.getSectors b 361 368 with
  | error e => exact ⟨e, rfl⟩
  | ok x =>
    exfalso
    unfold AHeader.getSectors AHeader.getSectorSlice at hg
    have hms : ∀ k s, h.maxSectors < s + k → s ≤ h.maxSectors → ∀ r, h.moreSize s k ≠ .ok r := by
      intro k
      induction k with
      | zero => intro s h1 h2; omega
      | succ k ih =>
        intro s h1 h2 r hr
        rw [AHeader.moreSize] at hr
        by_cases hs : s + 1 ≤ h.maxSectors
        · have := ih (s + 1) (by omega) hs
          cases hp : h.getPos (s + 1) with
          | error e => rw [hp] at hr; cases hr
          | ok y =>
            rw [hp] at hr; simp only at hr
            cases hq : h.moreSize (s + 1) k with
            | error e => rw [hq] at hr; cases hr
            | ok z => exact this z hq
        · rw [getPos_error g (by omega)] at hr; cases hr
    by_cases hs : 361 ≤ h.maxSectors
    · have := hms (368 - 361) 361 (by omega) hs
      cases hp : h.getPos 361 with
      | error e => rw [hp] at hg; cases hg
      | ok y =>
        rw [hp] at hg; simp only at hg
        cases hq : h.moreSize 361 (368 - 361) with
        | error e => rw [hq] at hg; cases hg
        | ok z => exact this z hq
    · rw [getPos_error g (by omega)] at hg; cases hg

/-- **C58.** A byte string opens as an Atari DOS volume exactly if its header is accepted, it has at least 368 sectors of at
least 5 bytes, its VTOC code is 0 or 2, the second VTOC exists if the image has the size of an enhanced density disk, and its
directory is fine.  In particular MyDOS volumes with more than one VTOC sector (codes from 3 on) are never opened. -/
theorem C58_opens_iff (b : Bytes) : (∃ m, AImg.open b = .ok m) ↔
    ∃ h, openHeader b = .ok h ∧ 368 ≤ h.maxSectors ∧ VtocFine h b ∧ DirFine h.maxSectors (dirBytes h b) := by
  unfold AImg.open
  cases ho : openHeader b with
  | error e => simp
  | ok h =>
    have g := openHeader_geom ho
    simp only [Except.ok.injEq, exists_eq_left']
    unfold AImg.getMetadata
    by_cases hmax : 368 ≤ h.maxSectors
    · rw [← getVtoc_iff g (by omega)]
      cases hv : AImg.getVtoc { hdr := h, bytes := b } with
      | mk r m1 =>
        obtain ⟨k1, k2, k3⟩ := getVtoc_keeps hv
        simp only at k1 k2 k3
        cases r with
        | error e => simp
        | ok u =>
          simp only
          unfold AImg.getDirectory
          rw [k1, k2, getSectors_range g hmax]
          simp only
          rw [← scanDir_fine g _ 0]
          cases hs : scanDir h 0 (chunks 16 (dirBytes h b)) with
          | error e => simp
          | ok ds =>
            simp only [k3, Bool.true_and]
            cases ha : (ds.filter (·.inUse)).all (·.isSane) with
            | false =>
              constructor
              · rintro ⟨m, hm⟩; cases hm
              · rintro ⟨_, _, ds', e', ha'⟩
                injection e' with e'; subst e'
                rw [ha] at ha'; cases ha'
            | true =>
              exact ⟨fun _ => ⟨hmax, ⟨m1, rfl⟩, ds, rfl, ha⟩, fun _ => ⟨_, rfl⟩⟩
    · constructor
      · rintro ⟨m, hm⟩
        exfalso
        cases hv : AImg.getVtoc { hdr := h, bytes := b } with
        | mk r m1 =>
          obtain ⟨k1, k2, k3⟩ := getVtoc_keeps hv
          rw [hv] at hm
          cases r with
          | error e => cases hm
          | ok u =>
            simp only at hm
            unfold AImg.getDirectory at hm
            obtain ⟨e, he⟩ := getSectors_361 g hmax
            rw [k1, k2, he] at hm
            cases hm
      · rintro ⟨hx, _⟩; exact absurd hx hmax

/-- **C58, MyDOS.** No image with a VTOC code other than 0 and 2 opens, whatever its size. -/
theorem C58_mydos_vtoc {b : Bytes} {h : AHeader} (ho : openHeader b = .ok h) (h0 : (sectorBytes h b 360).getD 0 0 ≠ 0)
    (h2 : (sectorBytes h b 360).getD 0 0 ≠ 2) : ∃ e, AImg.open b = .error e := by
  cases hb : AImg.open b with
  | error e => exact ⟨e, rfl⟩
  | ok m =>
    obtain ⟨h', e', _, hv, _⟩ := (C58_opens_iff b).mp ⟨m, hb⟩
    rw [ho] at e'; injection e' with e'; subst e'
    rcases hv.2.1 with hx | hx
    · exact absurd hx h0
    · exact absurd hx h2

/-- a single density disk with VTOC code `c`, one file entry and otherwise zeros -/
def openSec (c : UInt8) (s : Nat) : Bytes :=
  if s = 359 then sec128 [c, 0xc3, 2, 0xc3, 2]
  else if s = 360 then sec128 [0x42, 1, 0, 4, 0, 0x41]
  else List.replicate 128 0

theorem openSec_length (c : UInt8) (s : Nat) : (openSec c s).length = 128 := by
  unfold openSec sec128
  repeat' split
  all_goals simp

theorem openSec_facts (c : UInt8) : ∃ b : Bytes, openHeader b = .ok xfdHeader ∧
    (∀ s, 1 ≤ s → s ≤ 720 → sectorBytes xfdHeader b s = openSec c (s - 1)) := by
  have hl : ((List.range 720).flatMap (openSec c)).length = 92160 := by
    rw [flatMap128_length (openSec_length c), List.length_range]
  have hs : ∀ s, 1 ≤ s → s ≤ 720 → sectorBytes xfdHeader ((List.range 720).flatMap (openSec c)) s = openSec c (s - 1) := fun s h1 h2 => by
    rw [xfd_sectorBytes h1 h2]; exact flatMap128_slice (openSec_length c) (by omega)
  have h0 : slice ((List.range 720).flatMap (openSec c)) 0 128 = openSec c 0 := flatMap128_slice (s := 0) (openSec_length c) (by omega)
  generalize (List.range 720).flatMap (openSec c) = b at hl hs h0
  refine ⟨b, ?_, hs⟩
  refine openHeader_xfd hl ?_
  have : slice b 0 16 = slice (slice b 0 128) 0 16 := by rw [slice_slice]; rfl
  rw [this, h0]
  show AHeader.parse (slice (List.replicate 128 0) 0 16) = _
  decide +kernel

/-- with code 2 the disk opens, with code 3 (a MyDOS volume with three VTOC sectors) it does not -/
example : (∃ b m, AImg.open b = .ok m ∧ openHeader b = .ok xfdHeader) ∧
    ∃ b e, AImg.open b = .error e ∧ openHeader b = .ok xfdHeader ∧ sectorBytes xfdHeader b 360 = sec128 [3, 0xc3, 2, 0xc3, 2] := by
  constructor
  · obtain ⟨b, ho, hs⟩ := openSec_facts 2
    have h360 := hs 360 (by omega) (by omega)
    have hdir : dirBytes xfdHeader b = sec128 [0x42, 1, 0, 4, 0, 0x41] ++ List.replicate 896 0 := by
      have : dirBytes xfdHeader b = (List.range' 361 8).flatMap (fun s => openSec 2 (s - 1)) := by
        unfold dirBytes
        rw [List.flatMap_def, List.flatMap_def]
        congr 1
        apply List.map_congr_left
        intro s hm
        rw [List.mem_range'_1] at hm
        exact hs s (by omega) (by omega)
      rw [this]; decide +kernel
    obtain ⟨m, hm⟩ := (C58_opens_iff b).mpr ⟨xfdHeader, ho, by decide, ⟨by decide, Or.inr (by rw [h360]; decide +kernel), by decide⟩, by
      rw [hdir]
      exact .entry (by decide +kernel) (by decide +kernel) (by decide +kernel) (.stop (by decide +kernel) (by decide +kernel))⟩
    exact ⟨b, m, hm, ho⟩
  · obtain ⟨b, ho, hs⟩ := openSec_facts 3
    have h360 : sectorBytes xfdHeader b 360 = sec128 [3, 0xc3, 2, 0xc3, 2] := hs 360 (by omega) (by omega)
    obtain ⟨e, he⟩ := C58_mydos_vtoc ho (by rw [h360]; decide +kernel) (by rw [h360]; decide +kernel)
    exact ⟨b, e, he, ho, h360⟩

end Atr
