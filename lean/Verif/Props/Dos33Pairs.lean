import Verif.Props.Dos33Open
import Verif.Model.Cli
/-!
# C126: the VTOC byte that says how many sectors a track/sector list names

Byte 0x27 of the VTOC of a DOS 3.3 disk is 122 on a disk that DOS has formatted.  The code takes whatever is stored there
(dos33.py:446-458) and uses it as the step of a `range` and as the size of a list when a file is written (dos33.py:268-282).
Any volume that can be opened is considered, whatever its catalog, map and files.
-/
namespace Atr

theorem getDirectory_tsPairs {m m' : DImg} {r} (h : DImg.getDirectory m = (r, m')) : m'.tsPairs = m.tsPairs := by
  unfold DImg.getDirectory at h
  split at h
  · rw [← (Prod.mk.inj h).2]
  · rw [← (Prod.mk.inj h).2]

theorem calcBitmap_tsPairs {m m' : DImg} {map r} (h : DImg.calcBitmap map m = (r, m')) : m'.tsPairs = m.tsPairs := by
  unfold DImg.calcBitmap at h
  rw [← (Prod.mk.inj h).2]

theorem tsSectors_fits : ∀ {cs : List (List Nat)} {tl}, tsSectors cs = .ok tl → ∀ c ∈ cs, c.length ≤ 122 := by
  intro cs
  induction cs with
  | nil => intro _ _ c hc; cases hc
  | cons c cs ih =>
    intro tl h x hx
    unfold tsSectors at h
    split at h
    · exact nomatch h
    · rename_i s hs
      split at h
      · exact nomatch h
      · rename_i ss hss
        rcases List.mem_cons.mp hx with rfl | hx
        · unfold tsSector at hs
          split at hs
          · exact nomatch hs
          · omega
        · exact ih hss x hx

theorem buildTsList_fits {p : Nat} {nums : List Nat} {tl} (h : buildTsList p nums = .ok tl) : p ≠ 0 ∧ (p ≤ 122 ∨ nums.length ≤ 122) := by
  unfold buildTsList at h
  split at h
  · exact nomatch h
  · rename_i hp
    refine ⟨hp, ?_⟩
    by_cases hn : nums = []
    · exact Or.inr (by rw [hn]; exact Nat.zero_le _)
    · rw [chunks_cons p (by omega) nums hn] at h
      have := tsSectors_fits h _ List.mem_cons_self
      rw [List.length_take] at this
      omega

theorem writeBody_pairs {name data : Bytes} {ft : Nat} {m : DImg} (h : (DImg.writeBody name ft data m).1 = .ok ()) :
    m.tsPairs ≠ 0 ∧ (m.tsPairs ≤ 122 ∨ dataSecs33 data.length ≤ 122) := by
  unfold DImg.writeBody at h
  split at h
  · exact nomatch h
  · rename_i ds m1 hd
    have e1 := getDirectory_tsPairs hd
    simp only at h
    split at h
    · exact nomatch h
    · split at h
      · exact nomatch h
      · split at h
        · exact nomatch h
        · rename_i v1 m2 hb
          have e2 := calcBitmap_tsPairs hb
          split at h
          · exact nomatch h
          · rename_i tl ht
            have := buildTsList_fits ht
            rw [List.length_map, linkSectors_length, buildSectors33, List.length_map, length_chunks 256 (by omega), e2, e1] at this
            exact this

theorem writeFile33_pairs {name data : Bytes} {ft : Nat} {m : DImg} (h : (DImg.writeFile name ft data m).1 = .ok ()) :
    m.tsPairs ≠ 0 ∧ (m.tsPairs ≤ 122 ∨ dataSecs33 data.length ≤ 122) := by
  unfold DImg.writeFile DImg.transaction at h
  simp only at h
  split at h
  · rename_i hb
    exact writeBody_pairs (congrArg Prod.fst hb)
  · split at h <;> exact nomatch h

/-- **C126.** A file is only written to a DOS 3.3 volume whose VTOC byte 0x27 is not 0, and if that byte is more than 122, only
a file of at most 122 sectors. -/
theorem C126_writes {b name data : Bytes} {ft : Nat} {m : DImg} (ho : DImg.open b = .ok m)
    (h : (DImg.writeFile name ft data m).1 = .ok ()) :
    secByte33 b 272 0x27 ≠ 0 ∧ (secByte33 b 272 0x27 ≤ 122 ∨ dataSecs33 data.length ≤ 122) := by
  obtain ⟨_, _, _, _, _, hp, _⟩ := C77_opens b m ho
  rw [← hp]
  exact writeFile33_pairs h

theorem find33_cases (t : Char) (m : DImg) (name : Bytes) :
    (dos33Driver t).find m name = .ok () ∧ name ∈ m.files.map (·.filename) ∨
    (dos33Driver t).find m name = .error .fileNotFound ∧ name ∉ m.files.map (·.filename) := by
  show (m.findDirent name).map (fun _ => ()) = _ ∧ _ ∨ (m.findDirent name).map (fun _ => ()) = _ ∧ _
  unfold DImg.findDirent
  split
  · rename_i d hd
    refine Or.inl ⟨rfl, List.mem_map.mpr ⟨d, List.mem_of_find?_eq_some hd, ?_⟩⟩
    simpa using List.find?_some hd
  · rename_i hd
    refine Or.inr ⟨rfl, fun hc => ?_⟩
    obtain ⟨d, hd', e⟩ := List.mem_map.mp hc
    have := List.find?_eq_none.mp hd d hd'
    simp [e] at this

theorem addLoop33_zero (t : Char) (o : Opts) (hf : o.force = false) (hr : o.dryRun = false) (m : DImg) (hz : m.tsPairs = 0) :
    ∀ (fs : List (Bytes × Bytes)),
      (∀ f ∈ fs, f.1 ∈ m.files.map (·.filename)) ∧ addLoop (dos33Driver t) o fs false m = (.ok false, m) ∨
      ¬ (∀ f ∈ fs, f.1 ∈ m.files.map (·.filename)) ∧ ∃ e m', addLoop (dos33Driver t) o fs false m = (.error e, m') := by
  intro fs
  induction fs with
  | nil => exact Or.inl ⟨fun f h => (by cases h), rfl⟩
  | cons f fs ih =>
    obtain ⟨name, data⟩ := f
    rcases find33_cases t m name with ⟨h1, h2⟩ | ⟨h1, h2⟩
    · have hs : saveFile (dos33Driver t) o name data m = (.ok false, m) := by
        unfold saveFile
        rw [h1]
        simp only [hf]
        rfl
      rcases ih with ⟨h3, h4⟩ | ⟨h3, e, m', h4⟩
      · refine Or.inl ⟨fun f hm => ?_, ?_⟩
        · rcases List.mem_cons.mp hm with rfl | hm
          · exact h2
          · exact h3 f hm
        · unfold addLoop
          rw [hs]
          exact h4
      · refine Or.inr ⟨fun hc => h3 fun f hm => hc f (List.mem_cons_of_mem _ hm), e, m', ?_⟩
        unfold addLoop
        rw [hs]
        exact h4
    · refine Or.inr ⟨fun hc => h2 (hc _ List.mem_cons_self), ?_⟩
      cases hw : DImg.writeFile name (textToType33 t) data m with
      | mk r m' =>
        cases r with
        | ok u => exact absurd hz (writeFile33_pairs (congrArg Prod.fst hw)).1
        | error e =>
          refine ⟨e, m', ?_⟩
          have hs : saveFile (dos33Driver t) o name data m = (.error e, m') := by
            unfold saveFile
            rw [h1]
            unfold finishSave
            have hw' : (dos33Driver t).write name data m = (.error e, m') := hw
            simp [hr, hw']
          unfold addLoop
          rw [hs]

/-- **C126, the command.** On a volume whose VTOC byte 0x27 is 0, `atrcopy IMAGE add FILES…` without `--force` changes nothing:
it fails, unless all the names are on the disk already, so that every file is skipped. -/
theorem C126_add {b : Bytes} {m : DImg} (t : Char) (o : Opts) (hf : o.force = false) (hr : o.dryRun = false) (ho : DImg.open b = .ok m)
    (hz : secByte33 b 272 0x27 = 0) (fs : List (Bytes × Bytes)) :
    ((Cmd.add fs).run (dos33Driver t) o b).2 = b ∧
    (((Cmd.add fs).run (dos33Driver t) o b).1 = .ok () ↔ ∀ f ∈ fs, f.1 ∈ m.files.map (·.filename)) := by
  obtain ⟨_, _, _, _, _, hp, _⟩ := C77_opens b m ho
  have hl : (dos33Driver t).load b = .ok m := ho
  unfold Cmd.run
  rw [hl]
  simp only [Cmd.exec]
  rcases addLoop33_zero t o hf hr m (hp.trans hz) fs with ⟨h1, h2⟩ | ⟨h1, e, m', h2⟩
  · rw [h2]
    exact ⟨rfl, fun _ => h1, fun _ => rfl⟩
  · rw [h2]
    exact ⟨rfl, fun h => (nomatch h), fun h => absurd h h1⟩

/-- the VTOC of the template with 0 for the number of pairs -/
def vtocPairs0 : Bytes := vtocBlank33.set 0x27 0

/-- sectors of a disk with that VTOC and an empty catalog -/
def pairs0Sec (s : Nat) : Bytes := if s = 272 then vtocPairs0 else List.replicate 256 0

theorem pairs0Sec_length (s : Nat) : (pairs0Sec s).length = 256 := by
  unfold pairs0Sec
  split
  · decide +kernel
  · exact List.length_replicate

theorem pairs0_volume : secByte33 (imgOf33 pairs0Sec) 272 0x27 = 0 ∧ Volume33 (imgOf33 pairs0Sec) [287] := by
  have hs : ∀ s, s < 560 → sec33 (imgOf33 pairs0Sec) s = pairs0Sec s := fun s h => sec33_flatMap pairs0Sec_length h
  have hlen := imgOf33_length pairs0Sec_length
  have hv : sec33 (imgOf33 pairs0Sec) 272 = vtocPairs0 := by rw [hs 272 (by omega)]; unfold pairs0Sec; rw [if_pos rfl]
  have h0 : sec33 (imgOf33 pairs0Sec) 0 = List.replicate 256 0 := by rw [hs 0 (by omega)]; unfold pairs0Sec; rw [if_neg (by omega)]
  have hc : sec33 (imgOf33 pairs0Sec) 287 = List.replicate 256 0 := by rw [hs 287 (by omega)]; unfold pairs0Sec; rw [if_neg (by omega)]
  clear hs
  generalize imgOf33 pairs0Sec = b at hlen hv h0 hc
  have hV : ∀ j, j < 256 → secByte33 b 272 j = (vtocPairs0.getD j 0).toNat := by
    intro j hj
    unfold secByte33
    rw [← getD_sec33 hj, hv]
  have hC : ∀ j, j < 256 → secByte33 b 287 j = ((List.replicate 256 (0 : UInt8)).getD j 0).toNat := by
    intro j hj
    unfold secByte33
    rw [← getD_sec33 hj, hc]
  have hn : sectors33 b = 560 := by
    unfold sectors33
    rw [hV _ (by omega), hV _ (by omega)]
    decide +kernel
  have hst : pairAt33 b 272 1 = 287 := by
    unfold pairAt33
    rw [hV _ (by omega), hV _ (by omega)]
    decide +kernel
  have hl : pairAt33 b 287 1 = 0 := by
    unfold pairAt33
    rw [hC _ (by omega), hC _ (by omega)]
    decide +kernel
  refine ⟨(hV _ (by omega)).trans (by decide +kernel), hlen, ⟨?_, ?_⟩, ?_, ?_, ?_⟩
  · intro h
    have h1 : (b.take 4)[0]? = some 1 := by rw [h]; rfl
    rw [List.getElem?_take_of_lt (by omega)] at h1
    have h2 := getD_sec33 (b := b) (s := 0) (i := 0) (by omega)
    rw [h0, List.getD_eq_getElem?_getD (l := b), Nat.mul_zero, Nat.add_zero, h1] at h2
    exact absurd h2 (by decide +kernel)
  · intro _
    rw [hV _ (by omega), hV _ (by omega)]
    decide +kernel
  · rw [hn, hst]; omega
  · rw [hn, hst]
    exact .next (by omega) (by omega) (by omega) (by rw [hl]; exact .done)
  · intro p hp
    have hlast : lastEntry33 b (256 * 287 + 11) = true := by
      have h1 := hC 11 (by omega)
      have h2 := hC 13 (by omega)
      unfold secByte33 at h1 h2
      unfold lastEntry33 byteOf
      rw [h1, h2]
      decide +kernel
    have : seenEntries33 b 287 = [] := by
      unfold seenEntries33 entryPos33
      rw [show List.range 7 = 0 :: [1, 2, 3, 4, 5, 6] from rfl, List.map_cons, List.takeWhile_cons, if_neg]
      simp [hlast]
    rw [List.flatMap_cons, this] at hp
    cases hp

/-- such a disk exists: it opens, and it takes no file -/
example : ∃ m, DImg.open (imgOf33 pairs0Sec) = .ok m ∧
    ∀ name ft data, (DImg.writeFile name ft data m).1 ≠ .ok () := by
  obtain ⟨m, h⟩ := C77_volume pairs0_volume.2
  exact ⟨m, h, fun _ _ _ hw => (C126_writes h hw).1 pairs0_volume.1⟩

end Atr
