import Verif.Lemmas.DetectSegs
/-!
# What a file is taken for

`detect` runs containers, signature database and all parsers of the package.  The theorems say which of the formats an Atari
disk is taken for, without hypotheses on the parsers.
-/
namespace Atr

/-- Nothing unpacks the file, and its size and hash are not in the signature database. -/
structure Libs.Plain (L : Libs) (b : Bytes) : Prop where
  gzip : OsRejects (L.dec.gzip b)
  bzip : OsRejects (L.dec.bzip b)
  lzma : LzmaRejects (L.dec.lzma b)
  dcm : ¬ IsDcm b
  sig : L.sig b = none

theorem detect_plain {L : Libs} {b : Bytes} (hp : L.Plain b) : detect L b = liftErr (findByMime (imageParsers L.zip) b mimeParseOrder) := by
  unfold detect
  rw [(C34_passthrough L.dec L.sig (imageParsers L.zip) b hp.gzip hp.bzip hp.lzma hp.dcm).1]
  unfold findParser guessParserBySize
  rw [hp.sig]

theorem checkSignature_long {b : Bytes} : ∀ (l : List SigItem), (∀ s ∈ l, ∀ i e, s = .byte i e → i < b.length) →
    ∃ r, checkSignature b l = .ok r := by
  intro l
  induction l with
  | nil => intro _; exact ⟨true, rfl⟩
  | cons s l ih =>
    intro h
    have hs : ∃ r, s.check b = .ok r := by
      cases s with
      | range i j e => exact ⟨_, rfl⟩
      | byte i e =>
        have := h _ (List.mem_cons_self ..) i e rfl
        simp only [SigItem.check]
        rw [List.getElem?_eq_getElem this]
        exact ⟨_, rfl⟩
    obtain ⟨r, hr⟩ := hs
    rw [checkSignature, hr]
    cases r with
    | false => exact ⟨false, rfl⟩
    | true => exact ih fun s hs => h s (List.mem_cons_of_mem _ hs)

/-- on files of at least 2141 bytes the refinement of the type cannot fail -/
theorem guessDetail_long {b : Bytes} (hl : 2141 ≤ b.length) (m : Mime) : ∃ t, guessDetail m b = .ok t := by
  have key : ∀ l : List (Mime × Mime × List SigItem), (∀ e ∈ l, ∀ s ∈ e.2.2, ∀ i x, s = .byte i x → i < b.length) →
      ∃ t, guessDetailGo m b l = .ok t := by
    intro l
    induction l with
    | nil => intro _; exact ⟨m, rfl⟩
    | cons e l ih =>
      intro h
      obtain ⟨detail, base, sig⟩ := e
      rw [guessDetailGo]
      have hr := ih fun e he => h e (List.mem_cons_of_mem _ he)
      split
      · obtain ⟨r, hc⟩ := checkSignature_long sig (h _ (List.mem_cons_self ..))
        rw [hc]
        cases r with
        | true => exact ⟨detail, rfl⟩
        | false => exact hr
      · exact hr
  refine key magicTable ?_
  have hb : ∀ e ∈ magicTable, ∀ s ∈ e.2.2, (match s with | .byte i _ => decide (i < 2141) | _ => true) = true := by decide +kernel
  intro e he s hs i x hx
  have := hb e he s hs
  rw [hx] at this
  have := of_decide_eq_true this
  omega

theorem detect_atr {L : Libs} {b : Bytes} (hp : L.Plain b) (hl : 2141 ≤ b.length) {x : Image} (h : tryParsers true b atrParsers = .ok (some x)) :
    ∃ t, guessDetail .atr b = .ok t ∧ detect L b = .ok (x, t) := by
  obtain ⟨t, ht⟩ := guessDetail_long hl .atr
  refine ⟨t, ht, ?_⟩
  rw [detect_plain hp]
  unfold mimeParseOrder
  rw [findByMime, show imageParsers L.zip .atr = atrParsers from rfl, h]
  simp only
  rw [ht]
  rfl

theorem detect_atr_error {L : Libs} {b : Bytes} (hp : L.Plain b) {e : Err} (h : tryParsers true b atrParsers = .error e) :
    detect L b = .error (.py e) := by
  rw [detect_plain hp]
  unfold mimeParseOrder
  rw [findByMime, show imageParsers L.zip .atr = atrParsers from rfl, h]
  rfl

/-! ### the five parsers of Atari disks -/

theorem kbootParser_eq {b : Bytes} {h : AHeader} (ho : openHeader b = .ok h) (hs : 3 ≤ h.sectorSize) (hm : 4 ≤ h.maxSectors) (hu : UsualDisk h b) :
    kbootParser b true = if KbootLike h b then
      .ok (.kboot { hdr := h, bytes := b, exe := slice b (bootEnd h) (bootEnd h + kbootLength h b) }
        (kbootSegments h b (slice b (bootEnd h) (bootEnd h + kbootLength h b))))
    else .error .invalidSegmentParser := by
  have e0 := diskClass_parser openKboot HImg.hdr (fun m => m.bytes.length) (fun m => .ok (kbootSegments m.hdr m.bytes m.exe)) (fun x => .kboot x.1 x.2) b
  change kbootParser b true = _ at e0
  rw [e0, openKboot_eq ho hs hm]
  by_cases hk : KbootLike h b
  · rw [if_pos hk, if_pos hk]
    simp only
    rw [if_pos (show h.headerOffset = 16 ∨ b.length ∈ xfdSizes from hu)]
  · rw [if_neg hk, if_neg hk]
    rfl

theorem spartaParser_not {b : Bytes} {h : AHeader} (ho : openHeader b = .ok h) (hs : 33 ≤ h.sectorSize) (hm : 1 ≤ h.maxSectors) (hn : ¬ SpartaLike h b) :
    spartaParser b true = .error .invalidSegmentParser := by
  have e0 := diskClass_parser SImg.open SImg.hdr (fun m => m.bytes.length) SImg.segments (fun x => .sparta x.1 x.2) b
  change spartaParser b true = _ at e0
  rw [e0]
  unfold SImg.open
  rw [ho]
  simp only
  rw [spartaBoot_eq (openHeader_geom ho) hs hm, if_neg hn]
  rfl

theorem atariParser_ok {b : Bytes} {m : AImg} {segs : List ISeg} (ho : AImg.open b = .ok m) (hu : UsualDisk m.hdr m.bytes) (hseg : m.segments = .ok segs) :
    atariParser b true = .ok (.atari m segs) := by
  have e0 := diskClass_parser AImg.open AImg.hdr (fun m => m.bytes.length) AImg.segments (fun x => .atari x.1 x.2) b
  change atariParser b true = _ at e0
  rw [e0, ho]
  simp only
  rw [if_pos (show m.hdr.headerOffset = 16 ∨ m.bytes.length ∈ xfdSizes from hu), hseg]

theorem atariParser_not {b : Bytes} {e : Err} (ho : AImg.open b = .error e) (he : e.isAtr = true) (hn : e ≠ .unsupportedDiskImage) :
    atariParser b true = .error .invalidSegmentParser := by
  have e0 := diskClass_parser AImg.open AImg.hdr (fun m => m.bytes.length) AImg.segments (fun x => .atari x.1 x.2) b
  change atariParser b true = _ at e0
  rw [e0, ho]
  simp only
  unfold sealErr
  rw [if_neg hn, if_pos he]

/-- the boot segments of a boot disk -/
def bootDiskBoot (h : AHeader) (b : Bytes) : List ISeg :=
  if bootByte h b 0 = 0 then
    let r := slice b h.headerOffset (h.headerOffset + firstBytes h (bootByte h b 1))
    [⟨.bootSectors, r⟩, ⟨.bootHeader, r.take 6⟩, ⟨.bootCode, r.drop 6⟩]
  else []

theorem bootSegments_eq {b : Bytes} {h : AHeader} (ho : openHeader b = .ok h) (hs : 6 ≤ h.sectorSize) (hm : 1 ≤ h.maxSectors)
    (hb : 1 ≤ bootByte h b 1) : bootSegments h b =
    if bootByte h b 0 = 0 ∧ h.maxSectors < bootByte h b 1 then .error .byteNotInFile
    else .ok ([⟨.header, b.take h.headerOffset⟩, ⟨.raw, b.drop h.headerOffset⟩] ++ bootDiskBoot h b) := by
  have g := openHeader_geom ho
  obtain ⟨k, hp, hk, hl⟩ := getPos_first g hm
  unfold bootSegments
  rw [getSectors_one_eq, hp]
  simp only
  have hlen : (slice b h.headerOffset (h.headerOffset + k)).length = k := by rw [length_slice]; omega
  have e0 : ((slice b h.headerOffset (h.headerOffset + k)).getD 0 0).toNat = bootByte h b 0 := by rw [getD_slice (by omega)]; rfl
  have e1 : ((slice b h.headerOffset (h.headerOffset + k)).getD 1 0).toNat = bootByte h b 1 := by rw [getD_slice (by omega)]; rfl
  unfold viewRecord
  rw [if_neg (fun hx => by rw [hx] at hlen; simp only [List.length_nil] at hlen; omega), if_neg (by omega)]
  simp only
  rw [e0, e1, baseSegs_eq _ (openHeader_size ho hm)]
  unfold bootDiskBoot
  by_cases hz : bootByte h b 0 = 0
  · rw [if_pos hz, if_pos hz]
    unfold bootSegsAt
    by_cases hx : h.maxSectors < bootByte h b 1
    · rw [if_pos ⟨hz, hx⟩, getSectorSlice_beyond g hm hx]
    · rw [if_neg (fun c => hx c.2), getSectorSlice_first g (by omega), Nat.max_eq_left hb]
      simp only
      rw [slice_zero]
  · rw [if_neg hz, if_neg (fun c => hz c.1), if_neg hz]

theorem bootParser_eq {b : Bytes} {h : AHeader} (ho : openHeader b = .ok h) (hs : 6 ≤ h.sectorSize) (hm : 1 ≤ h.maxSectors) (hu : UsualDisk h b) :
    bootParser b true = if BootLike h b ∧ ¬ (bootByte h b 0 = 0 ∧ h.maxSectors < bootByte h b 1) then
      .ok (.boot { hdr := h, bytes := b } ([⟨.header, b.take h.headerOffset⟩, ⟨.raw, b.drop h.headerOffset⟩] ++ bootDiskBoot h b))
    else .error .invalidSegmentParser := by
  have e0 := diskClass_parser openBoot HImg.hdr (fun m => m.bytes.length) (fun m => bootSegments m.hdr m.bytes) (fun x => .boot x.1 x.2) b
  change bootParser b true = _ at e0
  rw [e0]
  unfold openBoot
  rw [ho]
  simp only
  rw [bootCheckSize_eq (openHeader_geom ho) (by omega) hm]
  by_cases hb : BootLike h b
  · rw [if_pos hb]
    simp only [Except.map]
    rw [if_pos (show h.headerOffset = 16 ∨ b.length ∈ xfdSizes from hu), bootSegments_eq ho hs hm hb.2.1]
    by_cases hx : bootByte h b 0 = 0 ∧ h.maxSectors < bootByte h b 1
    · rw [if_pos hx, if_neg (fun c => c.2 hx)]
      rfl
    · rw [if_neg hx, if_pos ⟨hb, hx⟩]
  · rw [if_neg hb, if_neg (fun c => hb c.1)]
    rfl

theorem diskParser_eq {b : Bytes} {h : AHeader} (ho : openHeader b = .ok h) (hm : 1 ≤ h.maxSectors) (hu : UsualDisk h b) :
    diskParser b true = .ok (.disk { hdr := h, bytes := b } [⟨.header, b.take h.headerOffset⟩, ⟨.raw, b.drop h.headerOffset⟩]) := by
  have e0 := diskClass_parser openDisk HImg.hdr (fun m => m.bytes.length) (fun m => .ok (baseSegs m.hdr.imageSize m.hdr.headerOffset m.bytes)) (fun x => .disk x.1 x.2) b
  change diskParser b true = _ at e0
  rw [e0]
  unfold openDisk
  rw [ho]
  simp only [Except.map]
  rw [if_pos (show h.headerOffset = 16 ∨ b.length ∈ xfdSizes from hu), baseSegs_eq _ (openHeader_size ho hm)]


theorem try_step {b : Bytes} {p : ParserClass Image} {ps : List (ParserClass Image)} (h : p b true = .error .invalidSegmentParser) :
    tryParsers true b (p :: ps) = tryParsers true b ps := by
  rw [tryParsers, h]

theorem try_take {b : Bytes} {p : ParserClass Image} {ps : List (ParserClass Image)} {x : Image} (h : p b true = .ok x) :
    tryParsers true b (p :: ps) = .ok (some x) := by
  rw [tryParsers, h]

/-- an Atari disk of some size: with or without ATR header, no container, not in the signature database -/
structure PlainDisk (L : Libs) (h : AHeader) (b : Bytes) : Prop where
  plain : L.Plain b
  opens : openHeader b = .ok h
  usual : UsualDisk h b
  sectorSize : 33 ≤ h.sectorSize
  sectors : 4 ≤ h.maxSectors
  size : 2141 ≤ b.length

/-- **C68, KBoot.** Whatever else is on the disk: if bytes 9-11 of the boot sector, taken as a length, fit the size of the
image, the disk is taken for a KBoot disk with a single executable of this length. -/
theorem C68_kboot {L : Libs} {h : AHeader} {b : Bytes} (d : PlainDisk L h b) (hk : KbootLike h b) : ∃ t segs, guessDetail .atr b = .ok t ∧
    detect L b = .ok (.kboot { hdr := h, bytes := b, exe := slice b (bootEnd h) (bootEnd h + kbootLength h b) } segs, t) := by
  have h1 := d.sectorSize
  have hp := kbootParser_eq d.opens (by omega) d.sectors d.usual
  rw [if_pos hk] at hp
  obtain ⟨t, e1, e2⟩ := detect_atr d.plain d.size (try_take (ps := [spartaParser, atariParser, bootParser, diskParser]) hp)
  exact ⟨t, _, e1, e2⟩

theorem atr_third {L : Libs} {h : AHeader} {b : Bytes} (d : PlainDisk L h b) (hk : ¬ KbootLike h b) (hs : ¬ SpartaLike h b) :
    tryParsers true b atrParsers = tryParsers true b [atariParser, bootParser, diskParser] := by
  have h1 := d.sectorSize
  have h2 := d.sectors
  have hp := kbootParser_eq d.opens (by omega) d.sectors d.usual
  rw [if_neg hk] at hp
  unfold atrParsers
  rw [try_step hp, try_step (spartaParser_not d.opens h1 (by omega) hs)]

theorem open_sparta {b : Bytes} {m : SImg} (hm : SImg.open b = .ok m) : openHeader b = .ok m.hdr ∧ m.bytes = b := by
  unfold SImg.open at hm
  split at hm
  · cases hm
  rename_i h ho
  split at hm
  · cases hm
  split at hm
  · cases hm
  cases hm
  exact ⟨ho, rfl⟩

/-- **C68, SpartaDOS.** A disk that is not KBoot and opens as SpartaDOS is taken for a SpartaDOS disk, provided its segments can be
made. -/
theorem C68_sparta {L : Libs} {h : AHeader} {b : Bytes} (d : PlainDisk L h b) (hk : ¬ KbootLike h b) {m : SImg} {segs}
    (hm : SImg.open b = .ok m) (hseg : m.segments = .ok segs) : ∃ t, guessDetail .atr b = .ok t ∧ detect L b = .ok (.sparta m segs, t) := by
  have h1 := d.sectorSize
  apply detect_atr d.plain d.size
  have hp := kbootParser_eq d.opens (by omega) d.sectors d.usual
  rw [if_neg hk] at hp
  unfold atrParsers
  rw [try_step hp]
  obtain ⟨e1, e2⟩ := open_sparta hm
  rw [d.opens] at e1
  injection e1 with e1
  apply try_take
  have e0 := diskClass_parser SImg.open SImg.hdr (fun m => m.bytes.length) SImg.segments (fun x => .sparta x.1 x.2) b
  change spartaParser b true = _ at e0
  rw [e0, hm]
  simp only
  rw [if_pos (by rw [← e1, e2]; exact d.usual), hseg]

/-- **C68, Atari DOS.** A disk that is neither KBoot nor SpartaDOS and opens as Atari DOS is taken for an Atari DOS disk,
provided its segments can be made. -/
theorem C68_atari {L : Libs} {h : AHeader} {b : Bytes} (d : PlainDisk L h b) (hk : ¬ KbootLike h b) (hs : ¬ SpartaLike h b) {m : AImg} {segs}
    (hm : AImg.open b = .ok m) (hseg : m.segments = .ok segs) : ∃ t, guessDetail .atr b = .ok t ∧ detect L b = .ok (.atari m segs, t) := by
  apply detect_atr d.plain d.size
  rw [atr_third d hk hs]
  obtain ⟨e1, e2, _⟩ := open_first hm
  rw [d.opens] at e1
  injection e1 with e1
  exact try_take (atariParser_ok hm (by rw [← e1, e2]; exact d.usual) hseg)

/-- **C68, the rest.** A disk that is neither KBoot nor SpartaDOS and does not open as Atari DOS is taken for a boot disk if
its boot sector looks like one and (with flag 0) claims no more boot sectors than there are, and is shown as a plain disk
otherwise; it is never refused. -/
theorem C68_rest {L : Libs} {h : AHeader} {b : Bytes} (d : PlainDisk L h b) (hk : ¬ KbootLike h b) (hs : ¬ SpartaLike h b)
    (hss : 124 ≤ h.sectorSize) (h2 : h.sectorSize % 2 = 0) (hm : ∀ m, AImg.open b ≠ .ok m) : ∃ t, guessDetail .atr b = .ok t ∧
    detect L b = .ok (if BootLike h b ∧ ¬ (bootByte h b 0 = 0 ∧ h.maxSectors < bootByte h b 1) then
        .boot { hdr := h, bytes := b } ([⟨.header, b.take h.headerOffset⟩, ⟨.raw, b.drop h.headerOffset⟩] ++ bootDiskBoot h b)
      else .disk { hdr := h, bytes := b } [⟨.header, b.take h.headerOffset⟩, ⟨.raw, b.drop h.headerOffset⟩], t) := by
  have h1 := d.sectorSize
  have h4 := d.sectors
  apply detect_atr d.plain d.size
  have ha : atariParser b true = .error .invalidSegmentParser := by
    cases he : AImg.open b with
    | ok m => exact absurd he (hm m)
    | error e =>
      rcases open_error d.opens hss h2 he with rfl | rfl
      · exact atariParser_not he rfl (by decide)
      · exact atariParser_not he rfl (by decide)
  rw [atr_third d hk hs, try_step ha]
  have hb := bootParser_eq d.opens (by omega) (by omega) d.usual
  by_cases hc : BootLike h b ∧ ¬ (bootByte h b 0 = 0 ∧ h.maxSectors < bootByte h b 1)
  · rw [if_pos hc] at hb ⊢
    exact try_take hb
  · rw [if_neg hc] at hb ⊢
    rw [try_step hb]
    exact try_take (diskParser_eq d.opens (by omega) d.usual)

end Atr
