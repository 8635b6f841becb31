import Verif.Lemmas.Walk
import Verif.Lemmas.Dos33Blank
/-!
# C46, DOS 3.3: endless loops in catalogs and track/sector lists
-/
namespace Atr

/-- the link followed by the loop over track/sector lists -/
def tsNext (maxS : Nat) (b : Bytes) (s : Nat) : Option Nat :=
  if s = 0 ∨ maxS ≤ s then none else some (linkOf (WSector.ofData 256 (sec33 b s)).data)

/-- the link followed by the loop over the catalog -/
def catNext (maxS : Nat) (b : Bytes) (s : Nat) : Option Nat :=
  if s = 0 ∨ maxS ≤ s ∨ (sec33 b s).length ≠ 256 then none else some (linkOf (sec33 b s))

theorem tsLoop_hang_iff (maxS : Nat) (b : Bytes) : ∀ fuel s, tsLoop maxS b fuel s = .error .hang ↔
    ¬ ∃ k, k ≤ fuel ∧ EndsN (tsNext maxS b) k s := by
  intro fuel
  induction fuel with
  | zero =>
    intro s
    simp only [tsLoop, true_iff]
    rintro ⟨k, hk, e⟩
    have := e.pos; omega
  | succ fuel ih =>
    intro s
    simp only [tsLoop]
    by_cases h0 : s = 0 ∨ maxS ≤ s
    · have hn : tsNext maxS b s = none := if_pos h0
      constructor
      · intro h
        exfalso
        by_cases hs : s = 0
        · rw [if_pos hs] at h; cases h
        · rw [if_neg hs, if_pos (by omega)] at h; cases h
      · intro h; exact absurd ⟨1, by omega, EndsN.stop hn⟩ h
    · have hn : tsNext maxS b s = some (linkOf (WSector.ofData 256 (sec33 b s)).data) := if_neg h0
      rw [if_neg (by omega), if_neg (by omega)]
      have hstep : (∃ k, k ≤ fuel + 1 ∧ EndsN (tsNext maxS b) k s) ↔
          ∃ k, k ≤ fuel ∧ EndsN (tsNext maxS b) k (linkOf (WSector.ofData 256 (sec33 b s)).data) := by
        constructor
        · rintro ⟨k, hk, e⟩
          cases e with
          | stop h2 => rw [hn] at h2; cases h2
          | step h2 e => rw [hn] at h2; injection h2 with h2; subst h2; exact ⟨_, by omega, e⟩
        · rintro ⟨k, hk, e⟩; exact ⟨k + 1, by omega, EndsN.step hn e⟩
      rw [hstep, ← ih]
      cases tsLoop maxS b fuel (linkOf (WSector.ofData 256 (sec33 b s)).data) <;> simp

theorem catLoop_hang_iff (maxS : Nat) (b : Bytes) : ∀ fuel s num, catLoop maxS b fuel s num = .error .hang ↔
    ¬ ∃ k, k ≤ fuel ∧ EndsN (catNext maxS b) k s := by
  intro fuel
  induction fuel with
  | zero =>
    intro s num
    simp only [catLoop, true_iff]
    rintro ⟨k, hk, e⟩
    have := e.pos; omega
  | succ fuel ih =>
    intro s num
    simp only [catLoop]
    by_cases h0 : s = 0 ∨ maxS ≤ s ∨ (sec33 b s).length ≠ 256
    · have hn : catNext maxS b s = none := if_pos h0
      constructor
      · intro h
        exfalso
        by_cases hs : s = 0
        · rw [if_pos hs] at h; cases h
        · rw [if_neg hs] at h
          by_cases hs' : s < maxS
          · rw [if_neg (not_not_intro hs'), if_pos (by rcases h0 with h0 | h0 | h0; exact absurd h0 hs; omega; exact h0)] at h; cases h
          · rw [if_pos hs'] at h; cases h
      · intro h; exact absurd ⟨1, by omega, EndsN.stop hn⟩ h
    · have hn : catNext maxS b s = some (linkOf (sec33 b s)) := if_neg h0
      have hlen : ¬ (sec33 b s).length ≠ 256 := fun h => h0 (Or.inr (Or.inr h))
      rw [if_neg (by omega), if_neg (by omega), if_neg hlen]
      have hstep : (∃ k, k ≤ fuel + 1 ∧ EndsN (catNext maxS b) k s) ↔ ∃ k, k ≤ fuel ∧ EndsN (catNext maxS b) k (linkOf (sec33 b s)) := by
        constructor
        · rintro ⟨k, hk, e⟩
          cases e with
          | stop h2 => rw [hn] at h2; cases h2
          | step h2 e => rw [hn] at h2; injection h2 with h2; subst h2; exact ⟨_, by omega, e⟩
        · rintro ⟨k, hk, e⟩; exact ⟨k + 1, by omega, EndsN.step hn e⟩
      rw [hstep, ← ih _ (num + (scanCatSec maxS num (catEntries (sec33 b s))).length)]
      cases catLoop maxS b fuel (linkOf (sec33 b s)) (num + (scanCatSec maxS num (catEntries (sec33 b s))).length) <;> simp

/-- **C46, DOS 3.3 lists.** Cutting the loop over track/sector lists off after `max_sectors + 1` steps is exact: what has not
ended by then never ends. -/
theorem C46_dos33_list_hang_iff (maxS : Nat) (b : Bytes) (s : Nat) :
    tsLoop maxS b (maxS + 1) s = .error .hang ↔ ∀ fuel, tsLoop maxS b fuel s = .error .hang := by
  constructor
  · intro hh fuel
    rw [tsLoop_hang_iff] at hh ⊢
    rintro ⟨k, _, e⟩
    refine hh ⟨k, e.bound (N := maxS) (fun s t h => ?_), e⟩
    unfold tsNext at h
    split at h
    · cases h
    · omega
  · intro hh; exact hh _

/-- **C46, DOS 3.3 catalogs.** The same for the loop over the catalog. -/
theorem C46_dos33_catalog_hang_iff (maxS : Nat) (b : Bytes) (s num : Nat) :
    catLoop maxS b (maxS + 1) s num = .error .hang ↔ ∀ fuel, catLoop maxS b fuel s num = .error .hang := by
  constructor
  · intro hh fuel
    rw [catLoop_hang_iff] at hh ⊢
    rintro ⟨k, _, e⟩
    refine hh ⟨k, e.bound (N := maxS) (fun s t h => ?_), e⟩
    unfold catNext at h
    split at h
    · cases h
    · omega
  · intro hh; exact hh _

theorem EndsN.not_self {next : Nat → Option Nat} {s : Nat} (h : next s = some s) (k : Nat) : ¬ EndsN next k s := by
  intro e
  have := (EndsN.step h e).unique e
  omega

/-- **C46 is false**: a catalog sector that links to itself makes the loop over the catalog run forever, whatever else is on the
disk. -/
theorem C46_refuted_dos33_catalog {maxS : Nat} {b : Bytes} {s : Nat} (h0 : s ≠ 0) (h1 : s < maxS) (hlen : (sec33 b s).length = 256)
    (hlink : linkOf (sec33 b s) = s) (fuel num : Nat) : catLoop maxS b fuel s num = .error .hang := by
  rw [catLoop_hang_iff]
  rintro ⟨k, _, e⟩
  refine EndsN.not_self ?_ k e
  unfold catNext
  rw [if_neg (by omega), hlink]

/-- **C46 is false**: the same for a track/sector list. -/
theorem C46_refuted_dos33_list {maxS : Nat} {b : Bytes} {s : Nat} (h0 : s ≠ 0) (h1 : s < maxS) (hlen : (sec33 b s).length = 256)
    (hlink : linkOf (sec33 b s) = s) (fuel : Nat) : tsLoop maxS b fuel s = .error .hang := by
  rw [tsLoop_hang_iff]
  rintro ⟨k, _, e⟩
  refine EndsN.not_self ?_ k e
  unfold tsNext
  rw [if_neg (by omega), ofData_full hlen, hlink]

/-! ### concrete images -/

/-- the start of opening, for images with the VTOC of the blank disk -/
theorem open_prefix33 {b : Bytes} (hb : b.length = 143360) (h0 : sec33 b 0 = List.replicate 256 0) (hv : sec33 b 272 = vtocBlank33) :
    DImg.open b = match DImg.getDirectory { bytes := b, firstDir := 287, maxSectors := 560, tsPairs := 122 } with
      | (.error e, _) => .error e
      | (.ok _, m) => if m.allSane then .ok m else .error .invalidDiskImage := by
  have hboot : DImg.getBootInfo { bytes := b } = .ok () := by
    unfold DImg.getBootInfo getSec33
    rw [if_pos (by show 0 < 560; omega), if_pos (by show 272 < 560; omega), if_pos (by show 286 < 560; omega)]
    simp only
    rw [h0, hv, if_neg (by decide +kernel), if_pos (by decide +kernel), if_pos (by decide +kernel)]
  have hvt : DImg.getVtoc { bytes := b } = (.ok (), { bytes := b, firstDir := 287, maxSectors := 560, tsPairs := 122 }) := by
    unfold DImg.getVtoc getSec33
    rw [if_pos (by show 272 < 560; omega)]
    simp only
    rw [hv]
    have e1 : secOfTS (vtocBlank33.getD 1 0) (vtocBlank33.getD 2 0) = 287 := by decide +kernel
    have e2 : (vtocBlank33.getD 0x34 0).toNat * (vtocBlank33.getD 0x35 0).toNat = 560 := by decide +kernel
    have e3 : (vtocBlank33.getD 0x27 0).toNat = 122 := by decide +kernel
    rw [e1, e2, e3, if_pos (by omega)]
  unfold DImg.open
  rw [if_neg (by omega)]
  unfold DImg.getMetadata
  rw [hboot]
  simp only
  rw [hvt]
  simp only
  cases hg : DImg.getDirectory { bytes := b, firstDir := 287, maxSectors := 560, tsPairs := 122 } with
  | mk r m =>
    cases r with
    | error e => rfl
    | ok ds =>
      simp only
      cases m.allSane <;> rfl

/-- an image given by its sectors -/
def imgOf33 (f : Nat → Bytes) : Bytes := (List.range 560).flatMap f

theorem imgOf33_length {f : Nat → Bytes} (hf : ∀ s, (f s).length = 256) : (imgOf33 f).length = 143360 := by
  unfold imgOf33; rw [length_flatMap_const hf, List.length_range]

/-- sectors of a disk whose first catalog sector links to itself -/
def loopCatSec (s : Nat) : Bytes := if s = 272 then vtocBlank33 else if s = 287 then emptyCat33 287 else List.replicate 256 0

theorem emptyCat33_length (n : Nat) : (emptyCat33 n).length = 256 := by
  unfold emptyCat33 tsBytes
  rw [List.length_append, List.length_replicate]
  rfl

theorem loopCatSec_length (s : Nat) : (loopCatSec s).length = 256 := by
  unfold loopCatSec
  split
  · exact vtocBlank33_length
  · split
    · exact emptyCat33_length _
    · exact List.length_replicate

theorem getDirectory_error {m : DImg} {e : Err} (h : catLoop m.maxSectors m.bytes (m.maxSectors + 1) m.firstDir 0 = .error e) :
    DImg.getDirectory m = (.error e, m) := by
  unfold DImg.getDirectory
  rw [h]

theorem getDirectory_ok {m : DImg} {ds : List DDirent} (h : catLoop m.maxSectors m.bytes (m.maxSectors + 1) m.firstDir 0 = .ok ds) :
    DImg.getDirectory m =
      (.ok ds, { m with files := ds.filter (fun d => d.isSane && !d.deleted), allSane := m.allSane && ds.all (·.isSane) }) := by
  unfold DImg.getDirectory
  rw [h]

theorem catLoop_last {maxS : Nat} {b : Bytes} {s num : Nat} (fuel : Nat) (h0 : s ≠ 0) (h1 : s < maxS) (hlen : (sec33 b s).length = 256)
    (hl : linkOf (sec33 b s) = 0) : catLoop maxS b (fuel + 2) s num = .ok (scanCatSec maxS num (catEntries (sec33 b s))) := by
  simp only [catLoop]
  rw [if_neg h0, if_neg (not_not_intro h1), if_neg (not_not_intro hlen), hl, if_pos rfl]
  simp

theorem open_hang33 {b : Bytes} (hb : b.length = 143360) (h0 : sec33 b 0 = List.replicate 256 0) (hv : sec33 b 272 = vtocBlank33)
    (hl : linkOf (sec33 b 287) = 287) (hlen : (sec33 b 287).length = 256) : DImg.open b = .error .hang := by
  rw [open_prefix33 hb h0 hv, getDirectory_error (e := .hang)]
  exact C46_refuted_dos33_catalog (by show 287 ≠ 0; omega) (by show 287 < 560; omega) hlen hl _ _

/-- C46 is false, concretely: an image that can never be opened. -/
theorem C46_refuted_dos33_open : ∃ b : Bytes, b.length = 143360 ∧ DImg.open b = .error .hang := by
  have hs : ∀ s, s < 560 → sec33 (imgOf33 loopCatSec) s = loopCatSec s := fun s h => sec33_flatMap loopCatSec_length h
  refine ⟨imgOf33 loopCatSec, imgOf33_length loopCatSec_length, ?_⟩
  refine open_hang33 (imgOf33_length loopCatSec_length) ?_ ?_ ?_ ?_
  · rw [hs 0 (by omega)]; unfold loopCatSec; rw [if_neg (by omega), if_neg (by omega)]
  · rw [hs 272 (by omega)]; unfold loopCatSec; rw [if_pos rfl]
  · rw [hs 287 (by omega)]; decide +kernel
  · rw [hs 287 (by omega)]; exact loopCatSec_length _

/-- catalog sector with the entry of a binary file `A` of 3 sectors at track 18, sector 15; no further catalog sector -/
def oneCat33 : Bytes :=
  List.replicate 11 0 ++ ([18, 15, 4, 0xc1] ++ List.replicate 29 0xa0 ++ [3, 0]) ++ List.replicate 210 0

/-- sectors of a disk with the file `A`, whose track/sector list links to itself -/
def loopListSec (s : Nat) : Bytes :=
  if s = 272 then vtocBlank33 else if s = 287 then oneCat33 else if s = 303 then emptyCat33 303 else List.replicate 256 0

theorem loopListSec_length (s : Nat) : (loopListSec s).length = 256 := by
  unfold loopListSec
  split
  · exact vtocBlank33_length
  · split
    · decide +kernel
    · split
      · exact emptyCat33_length _
      · exact List.length_replicate

/-- the entry of that file -/
def oneEntry33 : DDirent := { ftype := 4, track := 18, sector := 15, filename := [0x41], numSectors := 3 }

theorem open_one33 {b : Bytes} (hb : b.length = 143360) (h0 : sec33 b 0 = List.replicate 256 0) (hv : sec33 b 272 = vtocBlank33)
    (hc : sec33 b 287 = oneCat33) :
    DImg.open b = .ok { bytes := b, firstDir := 287, maxSectors := 560, tsPairs := 122, files := [oneEntry33], allSane := true } := by
  rw [open_prefix33 hb h0 hv, getDirectory_ok (ds := [oneEntry33])]
  · rfl
  · have h := catLoop_last (maxS := 560) (b := b) (s := 287) (num := 0) 559 (by omega) (by omega) (by rw [hc]; decide +kernel)
      (by rw [hc]; decide +kernel)
    rw [hc] at h
    refine h.trans (congrArg Except.ok ?_)
    decide +kernel

theorem getFile_hang33 {maxS : Nat} {b : Bytes} {d : DDirent} (hsane : d.isSane = true)
    (h : tsLoop maxS b (maxS + 1) (secOfTS d.track d.sector) = .error .hang) : d.getFile maxS b = .error .hang := by
  unfold DDirent.getFile DDirent.tsMap
  rw [if_neg (by simp [hsane]), h]

theorem findFile_one {m : DImg} {d : DDirent} (h : m.files = [d]) : m.findFile d.filename = d.getFile m.maxSectors m.bytes := by
  unfold DImg.findFile DImg.findDirent
  rw [h]
  simp

/-- C46 is false, concretely: an image that opens, lists a file `A`, and hangs when the file is extracted. -/
theorem C46_refuted_dos33_file : ∃ (b : Bytes) (m : DImg), DImg.open b = .ok m ∧ m.names = [[0x41]] ∧ m.findFile [0x41] = .error .hang := by
  have hs : ∀ s, s < 560 → sec33 (imgOf33 loopListSec) s = loopListSec s := fun s h => sec33_flatMap loopListSec_length h
  have h303 : sec33 (imgOf33 loopListSec) 303 = emptyCat33 303 := by rw [hs 303 (by omega)]; decide +kernel
  have h0 : sec33 (imgOf33 loopListSec) 0 = List.replicate 256 0 := by
    rw [hs 0 (by omega)]; unfold loopListSec; rw [if_neg (by omega), if_neg (by omega), if_neg (by omega)]
  have h287 : sec33 (imgOf33 loopListSec) 287 = oneCat33 := by
    rw [hs 287 (by omega)]; unfold loopListSec; rw [if_neg (by omega), if_pos rfl]
  have h272 : sec33 (imgOf33 loopListSec) 272 = vtocBlank33 := by
    rw [hs 272 (by omega)]; unfold loopListSec; rw [if_pos rfl]
  have hb := imgOf33_length loopListSec_length
  generalize imgOf33 loopListSec = b at h303 h0 h287 h272 hb
  refine ⟨b, _, open_one33 hb h0 h272 h287, rfl, ?_⟩
  refine (findFile_one (d := oneEntry33) rfl).trans (getFile_hang33 (by decide) ?_)
  rw [show secOfTS oneEntry33.track oneEntry33.sector = 303 by decide]
  exact C46_refuted_dos33_list (by omega) (by show 303 < 560; omega) (by rw [h303]; exact emptyCat33_length _)
    (by rw [h303]; decide +kernel) _

/-- C46, the part that holds: on a consistent volume nothing hangs. -/
theorem C46_dos33_consistent_partial {m : DImg} {cs ds} (hm : Mounted33 m cs ds) : DImg.open m.bytes ≠ .error .hang ∧
    ∀ n, m.findFile n ≠ .error .hang := by
  refine ⟨by rw [hm.1]; simp, fun n => ?_⟩
  unfold DImg.findFile DImg.findDirent
  cases hf : m.files.find? (fun d => d.filename == n) with
  | none => simp
  | some d =>
    simp only
    obtain ⟨data, hd⟩ := mounted33_readable hm _ (List.mem_map_of_mem (f := fun d : DDirent => (d.filename, d.ftype, d.getFile m.maxSectors m.bytes)) (List.mem_of_find?_eq_some hf))
    simp only at hd
    rw [hd]; simp

end Atr
