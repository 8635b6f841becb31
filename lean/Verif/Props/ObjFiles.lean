import Verif.Props.Boot
import Verif.Props.ProgramFiles
import Verif.Props.DetectOther
import Verif.Props.Dos33Hang
import Verif.Props.Plugin
/-!
# C111: object files of any kind

Whatever a file given with `--obj` is taken for, its segments with an address go into the program.  The claim is that these are the pieces of
program in the file.
-/
namespace Atr

/-! ### what is claimed -/

/-- the pieces of program among the segments of a file: those with an address that is not 0, in order -/
def objParts (l : List ObjSeg) : List Seg := l.filterMap fun s => match s with | .run _ => none | .seg o d => if 0 < o then some ⟨o, d⟩ else none

/-- the run addresses among the segments of a file -/
def objRuns (l : List ObjSeg) : List Nat := l.filterMap fun s => match s with | .run a => some a | .seg _ _ => none

/-- reading the file `b` as an object file gives these pieces and these run addresses -/
def Gives (L : Libs) (b : Bytes) (parts : List Seg) (runs : List Nat) : Prop :=
  ∃ o, objRead L b = .ok o ∧ objParts (o.getD []) = parts ∧ objRuns (o.getD []) = runs

/-- an object file on the command line and what it gives -/
structure ObjGiven where
  path : Bytes
  parts : List Seg
  runs : List Nat

/-- the file is there and gives that -/
def ObjGiven.Ok (L : Libs) (h : Host) (g : ObjGiven) : Prop := g.path ≠ [0x2e] ∧ ∃ d, h.files.get g.path = some d ∧ Gives L d g.parts g.runs

/-- the run address of the program: the one on the command line, else the first in the files that is not 0, else 0 if a file has one -/
def chosenRun (typed : Option Nat) (runs : List Nat) : Option Nat :=
  match typed with
  | some a => some a
  | none =>
    match runs.find? (· ≠ 0) with
    | some a => some a
    | none => runs.head?

/-! ### the loop -/

theorem objParts_append (a b : List ObjSeg) : objParts (a ++ b) = objParts a ++ objParts b := by
  unfold objParts
  rw [List.filterMap_append]

theorem objRuns_append (a b : List ObjSeg) : objRuns (a ++ b) = objRuns a ++ objRuns b := by
  unfold objRuns
  rw [List.filterMap_append]

/-- the run address after these run addresses were met -/
def runAfter (rs : List Nat) (run : RunArg) : RunArg :=
  if run.isSet then run
  else
    match rs.find? (· ≠ 0) with
    | some a => .num a
    | none => if rs = [] then run else .num 0

theorem objLoop_all : ∀ (l : List ObjSeg) (acc : List (Int × Bytes)) (run : RunArg),
    objLoop l acc run = (acc ++ (objParts l).map Seg.int, runAfter (objRuns l) run) := by
  intro l
  induction l with
  | nil => intro acc run; simp [objLoop, objParts, objRuns, runAfter]
  | cons s l ih =>
    intro acc run
    cases s with
    | run a =>
      rw [objLoop, ih]
      have e1 : objParts (.run a :: l) = objParts l := by simp [objParts]
      have e2 : objRuns (.run a :: l) = a :: objRuns l := by simp [objRuns]
      rw [e1, e2]
      congr 1
      unfold runAfter
      by_cases hs : run.isSet
      · simp [hs]
      · simp only [hs, Bool.false_eq_true, if_false]
        by_cases ha : a = 0
        · subst ha
          rw [if_neg (by simp [RunArg.isSet]), List.find?_cons_of_neg (by simp)]
          cases h : (objRuns l).find? (· ≠ 0) with
          | some x => rfl
          | none => simp
        · rw [if_pos (by simp [RunArg.isSet, ha]), List.find?_cons_of_pos (by simp [ha])]
    | seg o d =>
      rw [objLoop, ih]
      have e2 : objRuns (.seg o d :: l) = objRuns l := by simp [objRuns]
      rw [e2]
      congr 1
      by_cases ho : 0 < o
      · rw [if_pos ho]
        have e1 : objParts (.seg o d :: l) = ⟨o, d⟩ :: objParts l := by simp [objParts, ho]
        rw [e1]
        simp [Seg.int]
      · rw [if_neg ho]
        have e1 : objParts (.seg o d :: l) = objParts l := by simp [objParts, ho]
        rw [e1]

theorem objFiles_given {W : World} {h : Host} : ∀ (os : List ObjGiven), (∀ o ∈ os, o.Ok W.libs h) →
    ∃ l, objFiles W h (os.map (·.path)) = .ok l ∧ objParts (l.flatMap fun o => o.getD []) = os.flatMap (·.parts) ∧
      objRuns (l.flatMap fun o => o.getD []) = os.flatMap (·.runs) := by
  intro os
  induction os with
  | nil => intro _; exact ⟨[], rfl, rfl, rfl⟩
  | cons g os ih =>
    intro hg
    obtain ⟨l, l1, l2, l3⟩ := ih fun o ho => hg o (List.mem_cons_of_mem _ ho)
    obtain ⟨h1, d, h2, o, h3, h4, h5⟩ := hg g List.mem_cons_self
    refine ⟨o :: l, ?_, ?_, ?_⟩
    · rw [List.map_cons, objFiles, if_neg (show g.path ≠ dotName from h1)]
      unfold Host.read
      rw [h2]
      simp only
      rw [h3]
      simp only
      rw [l1]
    · rw [List.flatMap_cons, List.flatMap_cons, objParts_append, h4, l2]
    · rw [List.flatMap_cons, List.flatMap_cons, objRuns_append, h5, l3]

theorem toSegs_int (l : List Seg) : toSegs (l.map Seg.int) = .ok l := by
  induction l with
  | nil => rfl
  | cons s l ih =>
    rw [List.map_cons, Seg.int, toSegs, if_neg (by omega), ih]
    rfl

/-- **C111, the arguments.** The program consists of the data files, then the pieces of the object files, all in the order given; a run address
on the command line counts before those in the files. -/
theorem C111_args (W : World) {h : Host} {gs : List Given} (hg : ∀ g ∈ gs, g.Ok h) {os : List ObjGiven} (ho : ∀ o ∈ os, o.Ok W.libs h)
    {run : Option Nat} {t : List Char} (hr : RunTyped run t) (more : List (List (List Char))) (more' : List (List Bytes)) :
    ({ data := gs.map Given.arg :: more, objs := os.map (·.path) :: more', run := t } : AsmArgs).build W h =
      .ok (gs.map Given.seg ++ os.flatMap (·.parts), chosenRun run (os.flatMap (·.runs))) := by
  obtain ⟨l, l1, l2, l3⟩ := objFiles_given os ho
  unfold AsmArgs.build
  simp only [List.headD_cons]
  rw [given_loop hg]
  simp only
  rw [l1]
  simp only
  unfold assembleSegments
  rw [given_loop hg]
  simp only
  rw [objLoop_all, l2, l3]
  simp only
  have e1 : (gs.map fun g => ((g.addr : Int), g.data)) = (gs.map Given.seg).map Seg.int := by
    rw [List.map_map]
    rfl
  rw [e1, ← List.map_append, toSegs_int]
  simp only
  generalize os.flatMap (·.runs) = rs
  cases hr with
  | none =>
    have hns : RunArg.isSet (.text []) = false := rfl
    unfold runAfter chosenRun
    rw [hns]
    simp only [Bool.false_eq_true, if_false]
    cases hf : rs.find? (· ≠ 0) with
    | some a =>
      simp only [RunArg.value]
      rw [if_neg (by omega), Int.toNat_natCast]
    | none =>
      cases rs with
      | nil => rfl
      | cons a rs =>
        have : a = 0 := by
          rw [List.find?_eq_none] at hf
          simpa using hf a List.mem_cons_self
        subst this
        rfl
  | some ht =>
    rename_i n
    have hne := typed_ne_nil ht
    have hv := typed_value ht
    have e2 : runAfter rs (.text t) = .text t := by
      unfold runAfter
      rw [if_pos]
      cases t with
      | nil => exact absurd rfl hne
      | cons a t => rfl
    have e3 : (RunArg.text t).value = some (n : Int) := by
      cases t with
      | nil => exact absurd rfl hne
      | cons a t => simp only [RunArg.value, hv]
    rw [e2, e3]
    simp only
    rw [if_neg (by omega), Int.toNat_natCast]
    rfl

/-! ### the kinds of files -/

theorem objRead_ok {L : Libs} {b : Bytes} {i : Image} {k} {l : List ObjSeg} (hd : detect L b = .ok (i, k)) (hi : i.objSegs (unpacked L b) = .ok l) :
    objRead L b = .ok (some l) := by
  unfold objRead
  rw [hd]
  simp only
  rw [hi]

theorem unpacked_plain {L : Libs} {b : Bytes} (h : L.Plain b) : unpacked L b = b := by
  unfold unpacked
  rw [(C34_order L.dec b).2.2.2.2 h.gzip h.bzip h.lzma h.dcm]

theorem gives_of {L : Libs} {b : Bytes} {i : Image} {k} {x : Bytes} {l : List ObjSeg} (hd : detect L b = .ok (i, k)) (hi : i.objSegs (unpacked L b) = .ok (.seg 0 x :: l)) :
    Gives L b (objParts l) (objRuns l) := ⟨_, objRead_ok hd hi, by simp [objParts], by simp [objRuns]⟩

/-- the pieces of an executable, but for the run addresses -/
def xexParts (l : List XSeg) : List Seg := l.filterMap fun s => if s.kind ≠ .run ∧ 0 < s.origin then some ⟨s.origin, s.data⟩ else none

/-- the run addresses of an executable -/
def xexRuns (l : List XSeg) : List Nat := l.filterMap fun s => if s.kind = .run then some (le16 (s.data.getD 0 0) (s.data.getD 1 0)) else none

theorem asObjAll_ok : ∀ {l : List XSeg}, (∀ s ∈ l, s.kind = .run → 2 ≤ s.data.length) →
    ∃ os, asObjAll l = .ok os ∧ objParts os = xexParts l ∧ objRuns os = xexRuns l := by
  intro l
  induction l with
  | nil => intro _; exact ⟨[], rfl, rfl, rfl⟩
  | cons s l ih =>
    intro h
    obtain ⟨os, o1, o2, o3⟩ := ih fun s hs => h s (List.mem_cons_of_mem _ hs)
    have hs := h s List.mem_cons_self
    by_cases hk : s.kind = .run
    · have h2 := hs hk
      match hd : s.data, h2 with
      | a :: c :: r, _ =>
        refine ⟨.run (le16 a c) :: os, ?_, ?_, ?_⟩
        · rw [asObjAll]
          unfold XSeg.asObj
          rw [if_pos hk, hd]
          simp only
          rw [o1]
        · simp only [objParts, xexParts] at o2 ⊢
          rw [List.filterMap_cons_none rfl, List.filterMap_cons_none (by simp [hk]), o2]
        · simp only [objRuns, xexRuns] at o3 ⊢
          rw [List.filterMap_cons_some (f := fun s : ObjSeg => match s with | .run a => some a | .seg _ _ => none) (b := le16 a c) rfl, List.filterMap_cons_some (b := le16 a c) (by simp [hk, hd]), o3]
    · refine ⟨.seg s.origin s.data :: os, ?_, ?_, ?_⟩
      · rw [asObjAll]
        unfold XSeg.asObj
        rw [if_neg hk]
        simp only
        rw [o1]
      · simp only [objParts, xexParts] at o2 ⊢
        by_cases ho : 0 < s.origin
        · rw [List.filterMap_cons_some (b := (⟨s.origin, s.data⟩ : Seg)) (by simp [ho]), List.filterMap_cons_some (b := (⟨s.origin, s.data⟩ : Seg)) (by simp [hk, ho]), o2]
        · rw [List.filterMap_cons_none (by simp [ho]), List.filterMap_cons_none (by simp [ho]), o2]
      · simp only [objRuns, xexRuns] at o3 ⊢
        rw [List.filterMap_cons_none rfl, List.filterMap_cons_none (by simp [hk]), o3]

/-- **C111, executables of the Atari.** The pieces are the segments that are not at address 0, the run addresses those stored at 0x2e0. -/
theorem C111_xex {L : Libs} {b : Bytes} {l : List XSeg} (d : OtherFile L b) (hx : XexFile b l) (hr : ∀ s ∈ l, s.kind = .run → 2 ≤ s.data.length) :
    Gives L b (xexParts l) (xexRuns l) := by
  obtain ⟨t, hd⟩ := C71_xex d hx
  obtain ⟨os, o1, o2, o3⟩ := asObjAll_ok hr
  have hi : (Image.xex l).objSegs (unpacked L b) = .ok (.seg 0 (unpacked L b) :: os) := by
    unfold Image.objSegs
    simp only
    rw [o1]
  have := gives_of hd hi
  rw [o2, o3] at this
  exact this

/-- **C111, BSAVE files of the Apple**: one piece, unless it is at address 0, and no run address. -/
theorem C111_bsave {L : Libs} {b : Bytes} {s : Seg} (d : OtherFile L b) (hx : ∀ l, ¬ XexFile b l) (hc : ∀ t five, ¬ CartOf t five b) (hl : b.length ≠ 143360)
    (hb : BsaveFile b s) : Gives L b (if 0 < s.origin then [s] else []) [] := by
  obtain ⟨t, hd⟩ := (C71_rest d hx hc hl).1 s hb
  have := gives_of hd (l := [.seg s.origin s.data]) rfl
  by_cases ho : 0 < s.origin
  · rw [if_pos ho]
    have e : objParts [.seg s.origin s.data] = [s] := by simp [objParts, ho]
    rw [e] at this
    exact this
  · rw [if_neg ho]
    have e : objParts [.seg s.origin s.data] = [] := by simp [objParts, ho]
    rw [e] at this
    exact this

/-- **C111, cartridges**: the main bank at its address and the switched banks, one after the other, at theirs. -/
theorem C111_cart {L : Libs} {b : Bytes} {t : Nat} {five : Bool} (d : OtherFile L b) (hc : CartOf t five b) : ∃ h, openCart b t = .ok h ∧
    Gives L b (objParts (.seg h.mainOrigin (slice b (h.headerOffset + h.mainOffset * 1024) (h.headerOffset + h.mainOffset * 1024 + h.mainSize * 1024)) ::
      h.banks.map fun o => .seg h.bankOrigin (slice b (h.headerOffset + o * 1024) (h.headerOffset + o * 1024 + h.bankSize * 1024)))) [] := by
  obtain ⟨k, h, h1, hd⟩ := C71_cart d hc
  refine ⟨h, h1, ?_⟩
  have := gives_of hd (x := unpacked L b) rfl
  rw [unpacked_plain d.plain] at this
  have e : ∀ l : List Nat, objRuns (l.map fun o => ObjSeg.seg h.bankOrigin (slice b (h.headerOffset + o * 1024) (h.headerOffset + o * 1024 + h.bankSize * 1024))) = [] := by
    intro l
    induction l with
    | nil => rfl
    | cons x l ih => rw [List.map_cons]; simp only [objRuns] at ih ⊢; rw [List.filterMap_cons_none rfl, ih]
  have e2 : ∀ x l, objParts (.seg 0 x :: l) = objParts l := by intro x l; simp [objParts]
  have e3 : ∀ o x l, objRuns (.seg o x :: l) = objRuns l := by intro o x l; simp [objRuns]
  rw [e2, e3, e3, e] at this
  exact this

/-- **C111, everything else without ATR header**: a ROM image and a file that nothing takes give nothing, and the program says nothing. -/
theorem C111_rest {L : Libs} {b : Bytes} (d : OtherFile L b) (hx : ∀ l, ¬ XexFile b l) (hc : ∀ t five, ¬ CartOf t five b) (hl : b.length ≠ 143360)
    (hb : ∀ s, ¬ BsaveFile b s) : Gives L b [] [] := by
  by_cases hk : ∃ k, b.length = 2 ^ k
  · obtain ⟨t, hd⟩ := (C71_rest d hx hc hl).2.1 hb hk
    exact gives_of hd (l := [.seg 0 b]) rfl
  · have hd := (C71_rest d hx hc hl).2.2 hb hk
    refine ⟨none, ?_, rfl, rfl⟩
    unfold objRead
    rw [hd]
    rfl

/-- **C111, packed files.** A file packed with gzip gives what it gives unpacked. -/
theorem C111_packed {L : Libs} {b x : Bytes} (h : L.dec.gzip b = .ok x) (hp : OsRejects (L.dec.gzip x)) (hp2 : OsRejects (L.dec.bzip x))
    (hp3 : LzmaRejects (L.dec.lzma x)) (hp4 : ¬ IsDcm x) : objRead L b = objRead L x := by
  have e1 := (C34_order L.dec b).1 x h
  have e2 := (C34_order L.dec x).2.2.2.2 hp hp2 hp3 hp4
  have u1 : unpacked L b = x := by unfold unpacked; rw [e1]
  have u2 : unpacked L x = x := by unfold unpacked; rw [e2]
  have d : detect L b = detect L x := by
    unfold detect findDiskimage
    rw [e1, e2]
    rfl
  unfold objRead
  rw [u1, u2, d]

/-! ### disks -/

theorem parts_named {h : AHeader} {a n : Nat} : ∀ {l : List ISeg}, (∀ s ∈ l, s.origin h a n = 0) → objParts (l.map fun s => .seg (s.origin h a n) s.data) = [] := by
  intro l
  induction l with
  | nil => intro _; rfl
  | cons s l ih =>
    intro hl
    have := ih fun s hs => hl s (List.mem_cons_of_mem _ hs)
    rw [List.map_cons, hl s List.mem_cons_self]
    simp only [objParts] at this ⊢
    rw [List.filterMap_cons_none (by simp), this]

theorem runs_named (f : ISeg → Nat) : ∀ (l : List ISeg), objRuns (l.map fun s => .seg (f s) s.data) = [] := by
  intro l
  induction l with
  | nil => rfl
  | cons s l ih =>
    rw [List.map_cons]
    simp only [objRuns] at ih ⊢
    rw [List.filterMap_cons_none rfl, ih]

/-- **C111 is false for Atari DOS disks**: the executables on them give nothing.  (Byte 0 of sector 360 is the code of the VTOC, 2 on disks of DOS 2.) -/
theorem C111_refuted_atari {L : Libs} {hd : AHeader} {M : FMap} {b : Bytes} (hh : AtariDisk L hd M b) (hv : (sec hd b 360).getD 0 0 ≠ 0) : Gives L b [] [] := by
  obtain ⟨⟨m, ds, h1, h2, h3, h4, h5⟩, ha⟩ := hh
  obtain ⟨fs, hseg, hfs⟩ := segments_mounted h2
  subst h3
  subst h4
  obtain ⟨k, _, hd⟩ := C68_atari (plainDisk_mounted h2 (ha.plain _ rfl rfl) ha.usual) ha.notKboot ha.notSparta h2.1 hseg
  have := gives_of hd rfl
  rw [runs_named, parts_named] at this
  · exact this
  · have hb : shownBoot m.hdr m.bytes = [] := by
      unfold shownBoot
      rw [if_neg hv]
    have hn : ∀ s ∈ fs, ∃ n, s.name = .file n := by
      intro s hs
      have : (s.name, Except.ok s.data) ∈ m.listing.map fun x => (SegName.file x.1, x.2) := hfs ▸ List.mem_map_of_mem hs
      obtain ⟨x, _, hx⟩ := List.mem_map.mp this
      exact ⟨x.1, (congrArg Prod.fst hx).symm⟩
    rw [hb]
    intro s hs
    unfold shownVtoc at hs
    simp only [List.mem_append, List.mem_cons, List.not_mem_nil, or_false] at hs
    rcases hs with (((rfl | rfl) | (rfl | hs)) | rfl) | hs
    · rfl
    · rfl
    · rfl
    · split at hs
      · rw [List.mem_singleton.mp hs]; rfl
      · cases hs
    · rfl
    · obtain ⟨n, hn⟩ := hn s hs
      unfold ISeg.origin
      rw [hn]

/-- **C111 is false for KBoot disks**: the whole executable on the disk, headers and all, becomes a single piece of program, and its address is its position in
the image file. -/
theorem C111_refuted_kboot {L : Libs} {h : AHeader} {b : Bytes} (d : PlainDisk L h b) (hk : KbootLike h b) :
    Gives L b (if 0 < bootEnd h then [⟨bootEnd h, slice b (bootEnd h) (bootEnd h + kbootLength h b)⟩] else []) [] := by
  have h1 := d.sectorSize
  have hp := kbootParser_eq d.opens (by omega) d.sectors d.usual
  rw [if_pos hk] at hp
  obtain ⟨t, e1, e2⟩ := detect_atr d.plain d.size (try_take (ps := [spartaParser, atariParser, bootParser, diskParser]) hp)
  have hg := (getPos_fourth (openHeader_geom d.opens) d.sectors).1
  have := gives_of e2 rfl
  rw [runs_named] at this
  have e3 : objParts ((kbootSegments h b (slice b (bootEnd h) (bootEnd h + kbootLength h b))).map fun s => .seg (s.origin h 0 0) s.data) =
      if 0 < bootEnd h then [⟨bootEnd h, slice b (bootEnd h) (bootEnd h + kbootLength h b)⟩] else [] := by
    unfold kbootSegments
    rw [List.map_append, objParts_append, parts_named]
    · by_cases h0 : 0 < bootEnd h
      · simp [objParts, ISeg.origin, hg, h0]
      · simp [objParts, ISeg.origin, hg, h0]
    · intro s hs
      unfold baseSegs at hs
      simp only [List.mem_append, List.mem_singleton] at hs
      rcases hs with hs | rfl
      · split at hs
        · rw [List.mem_singleton.mp hs]; rfl
        · cases hs
      · rfl
  rw [e3] at this
  exact this

/-- **C111, boot disks of this package.** So the disk that `boot` makes of a program gives, as an object file, not the program but its executable file as data at address 400. -/
theorem C111_refuted_boot {L : Libs} {segs : List Seg} {r : Option Nat} {x b : Bytes} (hx : getXex segs none = .ok x) (hlen : 1741 ≤ x.length ∧ x.length < 65536)
    (hb : createBootImage segs r = .ok b) (hp : L.Plain b) : Gives L b [⟨400, x⟩] [] := by
  unfold createBootImage at hb
  rw [hx] at hb
  obtain ⟨h, k1, k2, k3⟩ := C16_add_atr_header (addXexboot x)
  have hal := addXexboot_length x
  have henc : h.encode.length = 16 := by simp [AHeader.encode, enc16, enc32]
  change addAtrHeader (addXexboot x) = .ok b at hb
  rw [k2] at hb
  injection hb with hb
  have hh : h.headerOffset = 16 ∧ h.maxSectors = (addXexboot x).length / 128 ∧ h.numInitialSectors = 0 ∧ h.sectorSize = 128 := by
    rw [checkSize_plain _ (by omega) (by omega) (by omega)] at k1
    injection k1 with k1
    rw [← k1]
    exact ⟨rfl, rfl, rfl, rfl⟩
  obtain ⟨e1, e3, e4, e5⟩ := hh
  have hbe : bootEnd h = 400 := by unfold bootEnd; rw [e1, e4, e5]; rfl
  have hbl : b.length = 400 + (x.length + 127) / 128 * 128 := by
    rw [← hb, List.length_append, henc, hal]; omega
  obtain ⟨t, ht⟩ := kboot_count h.encode x henc
  rw [hb] at ht
  have hbyte : ∀ i, bootByte h b (9 + i) = ((b.drop 25).getD i 0).toNat := by
    intro i
    unfold bootByte
    rw [e1, List.getD_eq_getElem?_getD, List.getD_eq_getElem?_getD, List.getElem?_drop, show 16 + (9 + i) = 25 + i by omega]
  have hk : kbootLength h b = x.length := by
    unfold kbootLength bootWord
    have b0 := hbyte 0
    have b1 := hbyte 1
    have b2 := hbyte 2
    rw [ht] at b0 b1 b2
    simp only [Nat.add_zero] at b0
    rw [b0, b1, b2]
    simp only [List.getD_cons_zero, List.getD_cons_succ, toNat_ofNat]
    rw [show (0 : UInt8).toNat = 0 from rfl]
    omega
  have hd : PlainDisk L h b := ⟨hp, by rw [← hb]; exact k3, .inl e1, by omega, by omega, by omega⟩
  have := C111_refuted_kboot hd (by unfold KbootLike; rw [hbe, hk, hbl]; omega)
  rw [hbe, hk, if_pos (by omega)] at this
  have hsl : slice b 400 (400 + x.length) = x := by
    rw [← hb]
    unfold slice addXexboot
    rw [← List.append_assoc, ← List.append_assoc]
    have hfront : (h.encode ++ kbBoot x.length).length = 400 := by rw [List.length_append, henc, (kbBoot_facts _).1]
    rw [List.take_append_of_le_length (by rw [List.length_append, hfront]; exact Nat.le_refl _),
      List.take_of_length_le (by rw [List.length_append, hfront]; exact Nat.le_refl _)]
    conv => lhs; rw [← hfront]
    rw [List.drop_left]
  rw [hsl] at this
  exact this

theorem mem_fileSegs {δ : Type} {name : δ → Bytes} {get : δ → Except Err Bytes} {b : Bytes} : ∀ {ds : List δ} {ss : List ISeg}, fileSegs name get b ds = .ok ss →
    ∀ s ∈ ss, ∃ n, s.name = .file n ∨ s.name = .fileError n := by
  intro ds
  induction ds with
  | nil => intro ss h; injection h with h; subst h; intro s hs; cases hs
  | cons d ds ih =>
    intro ss h
    unfold fileSegs at h
    have fin : ∀ s0 : ISeg, (∃ n, s0.name = .file n ∨ s0.name = .fileError n) →
        (match fileSegs name get b ds with | .error e => Except.error e | .ok ss => .ok (s0 :: ss)) = .ok ss → ∀ s ∈ ss, ∃ n, s.name = .file n ∨ s.name = .fileError n := by
      intro s0 h0 h
      cases hr : fileSegs name get b ds with
      | error e => rw [hr] at h; cases h
      | ok r =>
        rw [hr] at h
        injection h with h
        subst h
        intro s hs
        rcases List.mem_cons.mp hs with rfl | hs
        · exact h0
        · exact ih hr s hs
    cases hg : get d with
    | ok data =>
      rw [hg] at h
      exact fin _ ⟨name d, .inl rfl⟩ h
    | error e =>
      rw [hg] at h
      simp only at h
      by_cases he : e.isInvalidFile = true
      · rw [if_pos he] at h
        exact fin _ ⟨name d, .inr rfl⟩ h
      · rw [if_neg he] at h
        cases h

theorem parts_named33 : ∀ {l : List ISeg}, (∀ s ∈ l, s.origin33 = 0) → objParts (l.map fun s => .seg s.origin33 s.data) = [] := by
  intro l
  induction l with
  | nil => intro _; rfl
  | cons s l ih =>
    intro hl
    have := ih fun s hs => hl s (List.mem_cons_of_mem _ hs)
    rw [List.map_cons, hl s List.mem_cons_self]
    simp only [objParts] at this ⊢
    rw [List.filterMap_cons_none (by simp), this]

/-- the pieces of DOS in the boot sectors of a DOS 3.3 disk -/
def dosParts (b : Bytes) : List Seg := [⟨0x800, slice b 0 256⟩, ⟨0x3700, slice b 256 2560⟩, ⟨0x1b00, slice b 2560 3072⟩, ⟨0x1d00, slice b 3072 9728⟩]

theorem segments33_parts {m : DImg} {segs : List ISeg} (h : m.segments = .ok segs) : objParts (segs.map fun s => .seg s.origin33 s.data) = dosParts m.bytes := by
  have hs : ∀ i j d, slice33 m.maxSectors m.bytes i j = .ok d → d = slice m.bytes (256 * i) (256 * j + 256) := by
    intro i j d h
    unfold slice33 at h
    split at h
    · injection h with h; exact h.symm
    · cases h
  unfold DImg.segments at h
  cases e1 : slice33 m.maxSectors m.bytes 0 0 with
  | error e => rw [e1] at h; cases h
  | ok b1 =>
    rw [e1] at h; simp only at h
    cases e2 : slice33 m.maxSectors m.bytes 1 9 with
    | error e => rw [e2] at h; cases h
    | ok b2 =>
      rw [e2] at h; simp only at h
      cases e3 : slice33 m.maxSectors m.bytes 10 11 with
      | error e => rw [e3] at h; cases h
      | ok b3 =>
        rw [e3] at h; simp only at h
        cases e4 : slice33 m.maxSectors m.bytes 12 37 with
        | error e => rw [e4] at h; cases h
        | ok b4 =>
          rw [e4] at h; simp only at h
          cases e5 : slice33 m.maxSectors m.bytes 272 272 with
          | error e => rw [e5] at h; cases h
          | ok v =>
            rw [e5] at h; simp only at h
            cases e6 : catChain33 m.maxSectors m.bytes (m.maxSectors + 1) m.firstDir with
            | error e => rw [e6] at h; cases h
            | ok c =>
              rw [e6] at h; simp only at h
              cases e7 : fileSegs DDirent.filename (fun d => d.getFile m.maxSectors m.bytes) m.bytes m.files with
              | error e => rw [e7] at h; cases h
              | ok s =>
                rw [e7] at h
                injection h with h
                rw [← h, List.map_append, objParts_append, List.map_append, objParts_append, parts_named33 (l := baseSegs 143360 0 m.bytes), parts_named33 (l := s), hs _ _ _ e1, hs _ _ _ e2, hs _ _ _ e3, hs _ _ _ e4]
                · rfl
                · intro x hx
                  obtain ⟨n, hn | hn⟩ := mem_fileSegs e7 x hx <;> (unfold ISeg.origin33; rw [hn])
                · intro x hx
                  rw [baseSegs_eq _ (by omega)] at hx
                  simp only [List.mem_cons, List.not_mem_nil, or_false] at hx
                  rcases hx with rfl | rfl <;> rfl

/-- a binary file of a DOS 3.3 disk whose load address is above 4 -/
def BinaryAt (m : DImg) (d : DDirent) : Prop :=
  d ∈ m.files ∧ d.ftype = 4 ∧ ∃ data, d.getFile m.maxSectors m.bytes = .ok data ∧ data ≠ m.bytes ∧ 4 < le16 (data.getD 0 0) (data.getD 1 0)

theorem segOrigin_binary {m : DImg} {d : DDirent} (h : BinaryAt m d) : 0 < d.segOrigin m.maxSectors m.bytes := by
  obtain ⟨_, h4, data, hg, hne, ha⟩ := h
  have hg' := hg
  unfold DDirent.getFile at hg'
  split at hg'
  · cases hg'
  · cases ht : d.tsMap m.maxSectors m.bytes with
    | error e => rw [ht] at hg'; cases hg'
    | ok x =>
      obtain ⟨ts, map⟩ := x
      rw [ht] at hg'
      cases map with
      | nil => cases hg'
      | cons s map =>
        simp only at hg'
        by_cases hin : ∀ x ∈ s :: map, x < m.maxSectors
        · rw [readPositions_ok _ hin] at hg'
          simp only at hg'
          have e : ((s :: map).map (256 * ·)).flatMap (fun p => slice m.bytes p (p + 256)) = (s :: map).flatMap fun s => slice m.bytes (256 * s) (256 * s + 256) := by
            rw [List.flatMap_map]
          rw [e] at hg'
          split at hg'
          · injection hg' with hg'
            exact absurd hg'.symm hne
          · rename_i hn
            unfold DDirent.segOrigin
            rw [hg]
            simp only
            rw [ht]
            simp only
            rw [if_pos ⟨h4, hn⟩]
            omega
        · have : ∃ x ∈ s :: map, m.maxSectors ≤ x := by
            apply Classical.byContradiction
            intro hc
            exact hin fun x hx => by
              apply Classical.byContradiction
              intro hlt
              exact hc ⟨x, hx, by omega⟩
          rw [readPositions_error _ this] at hg'
          cases hg'

/-- **C111 is false for DOS 3.3 disks**: with a binary file on it that loads above address 4 the program stops with a `TypeError`; without one, the pieces are
those of DOS in the boot sectors of the disk, and the files give nothing. -/
theorem C111_refuted_dos33 {L : Libs} {b : Bytes} {m : DImg} {segs} (d : OtherFile L b) (hf : b.take 2 ≠ [0xff, 0xff]) (hm : DImg.open b = .ok m) (hs : m.segments = .ok segs) :
    ((∃ f, BinaryAt m f) → objRead L b = .error .typeError) ∧
    ((∀ f ∈ m.files, f.ftype ≠ 4) → Gives L b (dosParts b) []) := by
  obtain ⟨t, hd⟩ := C71_dos33 d hf hm hs
  have hb : m.bytes = b := (open33_ok hm).2.1
  refine ⟨fun ⟨f, hf⟩ => ?_, fun hn => ?_⟩
  · unfold objRead
    rw [hd]
    simp only
    unfold Image.objSegs
    simp only
    rw [if_pos]
    rw [List.any_eq_true]
    exact ⟨f, hf.1, by simpa using segOrigin_binary hf⟩
  · have hi : (Image.dos33 m segs).objSegs (unpacked L b) = .ok (.seg 0 (unpacked L b) :: segs.map fun s => .seg s.origin33 s.data) := by
      unfold Image.objSegs
      simp only
      rw [if_neg]
      rw [List.any_eq_true]
      rintro ⟨f, hf, h0⟩
      have : f.segOrigin m.maxSectors m.bytes = 0 := by
        unfold DDirent.segOrigin
        split
        · rfl
        · split
          · rfl
          · rw [if_neg fun h => hn f hf h.1]
      rw [this] at h0
      simp at h0
    have := gives_of hd hi
    rw [segments33_parts hs, runs_named, hb] at this
    exact this

/-- **C111, a damaged run address**: a segment at 0x2e0 of one byte is a `ValueError`. -/
theorem C111_refuted_run {L : Libs} {b : Bytes} {l : List XSeg} (d : OtherFile L b) (hx : XexFile b l) {s : XSeg} (hs : s ∈ l) (hk : s.kind = .run) (hr : s.data.length < 2) :
    objRead L b = .error .valueError := by
  obtain ⟨t, hd⟩ := C71_xex d hx
  have key : ∀ l : List XSeg, s ∈ l → asObjAll l = .error .valueError := by
    intro l
    induction l with
    | nil => intro h; cases h
    | cons x l ih =>
      intro h
      have hcase : x.asObj = .error .valueError ∨ ∃ o, x.asObj = .ok o := by
        unfold XSeg.asObj
        split
        · split
          · exact .inr ⟨_, rfl⟩
          · exact .inl rfl
        · exact .inr ⟨_, rfl⟩
      rw [asObjAll]
      rcases hcase with hc | ⟨o, hc⟩
      · rw [hc]
      · rw [hc]
        simp only
        rcases List.mem_cons.mp h with rfl | h
        · unfold XSeg.asObj at hc
          rw [if_pos hk] at hc
          split at hc
          · rename_i he
            rw [he] at hr
            simp only [List.length_cons] at hr
            omega
          · cases hc
        · rw [ih h]
  unfold objRead
  rw [hd]
  simp only
  unfold Image.objSegs
  simp only
  rw [key l hs]

/-! ### the program -/

/-- **C111, images.** What `assemble` asks of an image: to add the executable of the data files and the object files. -/
theorem C111_asked (W : World) {h : Host} {gs : List Given} (hg : ∀ g ∈ gs, g.Ok h) {os : List ObjGiven} (ho : ∀ o ∈ os, o.Ok W.libs h) {run : Option Nat} {t : List Char}
    (hr : RunTyped run t) (more : List (List (List Char))) (more' : List (List Bytes)) (dry force : Bool) (name output : Bytes) (k : ExeKind) {x : Bytes}
    (hx : exeOf ((exeKind output).getD k) (gs.map Given.seg ++ os.flatMap (·.parts)) (chosenRun run (os.flatMap (·.runs))) = .ok x) :
    Run.asked k W h name ⟨dry, name, .assemble force { data := gs.map Given.arg :: more, objs := os.map (·.path) :: more', run := t } output⟩ =
      some ('B', { force := force, dryRun := dry }, .add [(output, x)]) := by
  have hb := C111_args W hg ho hr more more'
  unfold Run.asked
  simp only [if_true]
  rw [hb]
  simp only
  rw [C96_create, show (exeKind output).getD ((exeKind output).getD k) = (exeKind output).getD k by cases exeKind output <;> rfl, hx]

/-- what the executable built from `segs` gives as an object file -/
theorem gives_built {L : Libs} {segs : List Seg} {run : Option Nat} {x : Bytes} (d : OtherFile L x) (hw : ∀ s ∈ segs, s.Wf)
    (h0 : ∀ s ∈ segs, 0 < s.origin ∧ s.origin ≠ 0x2e0) (hx : getXex segs run = .ok x) :
    ∃ runs r, Gives L x segs runs ∧ chosenRun none runs = some r ∧ getXex segs (some r) = .ok x := by
  obtain ⟨ps, objs, h1, h2, h3, h4⟩ := C63_reassemble_partial (fun _ => .error .ioError) hw h0 hx
  have hr : (asObjAll ps) = .ok objs := by
    clear h1 h3
    induction ps generalizing objs with
    | nil => cases objs with
      | nil => rfl
      | cons o l => cases h2
    | cons p ps ih =>
      cases objs with
      | nil => cases h2
      | cons o l =>
        rw [List.map_cons, List.map_cons] at h2
        injection h2 with a1 a2
        rw [asObjAll, a1]
        simp only
        rw [ih _ a2]
  obtain ⟨t, hd⟩ := C71_xex d ((C18_grammar x ps).mp h1)
  have hi : (Image.xex ps).objSegs (unpacked L x) = .ok (.seg 0 (unpacked L x) :: objs) := by
    unfold Image.objSegs
    simp only
    rw [hr]
  have hg := gives_of hd hi
  unfold assembleSegments at h3
  simp only [dataLoop, List.flatMap_cons, List.flatMap_nil, Option.getD_some, List.append_nil] at h3
  rw [objLoop_all] at h3
  injection h3 with h3
  injection h3 with h3 h5
  rw [List.nil_append] at h3
  have hinj : objParts objs = segs := by
    have := congrArg toSegs h3
    rw [toSegs_int, toSegs_int] at this
    injection this
  rw [hinj] at hg
  refine ⟨_, runValue segs run, hg, ?_, h4⟩
  revert h5
  generalize objRuns objs = rs
  unfold runAfter chosenRun
  rw [show RunArg.isSet (.text []) = false from rfl]
  simp only [Bool.false_eq_true, if_false]
  cases hf : rs.find? (· ≠ 0) with
  | some a =>
    intro h
    simp only [RunArg.value] at h
    injection h with h
    simp only
    congr 1
    omega
  | none =>
    cases rs with
    | nil => intro h; cases h
    | cons a rs =>
      have : a = 0 := by
        rw [List.find?_eq_none] at hf
        simpa using hf a List.mem_cons_self
      subst this
      intro h
      simp only [List.cons_ne_nil, if_false, RunArg.value] at h
      injection h with h
      simp only [List.head?_cons]
      congr 1
      omega

/-- **C111, the way back.** An executable built from segments (none at address 0, none at 0x2e0) and given as the only object file is built again, byte for byte:
as a file of the machine, and on Atari disks and all others whose executables have this format. -/
theorem C111_reassemble_partial (W : World) {h : Host} {segs : List Seg} {run : Option Nat} {x path output : Bytes} (d : OtherFile W.libs x) (hw : ∀ s ∈ segs, s.Wf)
    (h0 : ∀ s ∈ segs, 0 < s.origin ∧ s.origin ≠ 0x2e0) (hx : getXex segs run = .ok x) (hp : path ≠ [0x2e]) (hf : h.files.get path = some x) (dry force : Bool) :
    (exeKind output = some .xex → (Command.assemble force { objs := [[path]] } output).main W dry [0x2e] h =
      (.ok (), if (h.files.get output ≠ none ∧ force = false) ∨ dry = true then h else h.write output x)) ∧
    (exeKind output ≠ some .bsave → ∀ name, Run.asked .xex W h name ⟨dry, name, .assemble force { objs := [[path]] } output⟩ =
      some ('B', { force := force, dryRun := dry }, .add [(output, x)])) := by
  obtain ⟨runs, r, g1, g2, g3⟩ := gives_built d hw h0 hx
  have ho : ∀ o ∈ [(⟨path, segs, runs⟩ : ObjGiven)], o.Ok W.libs h := by
    intro o hm
    rw [List.mem_singleton.mp hm]
    exact ⟨hp, x, hf, g1⟩
  have hb := C111_args W (h := h) (gs := []) (fun _ h => by cases h) ho .none [] []
  simp only [List.map_nil, List.map_cons, List.flatMap_cons, List.flatMap_nil, List.append_nil, List.nil_append] at hb
  rw [g2] at hb
  have hb : ({ objs := [[path]] } : AsmArgs).build W h = .ok (segs, some r) := hb
  refine ⟨fun hk => ?_, fun hk name => ?_⟩
  · have hm : (Command.assemble force { objs := [[path]] } output).main W dry [0x2e] h =
        match makeExe none output segs (some r) with
        | .error e => (.error (.py e), h)
        | .ok x => (.ok (), localSave { force := force, dryRun := dry } h output x) := by
      unfold Command.main
      simp only
      rw [if_pos (show [0x2e] = dotName from rfl)]
      unfold Command.onLocal
      simp only
      rw [hb]
      rfl
    rw [hm, show makeExe none output segs (some r) = .ok x by
      unfold makeExe
      rw [hk]
      simp only
      rw [C96_create, hk]
      exact g3]
    simp only
    unfold localSave
    cases hf : h.files.get output with
    | none => cases dry <;> simp
    | some d => cases dry <;> cases force <;> simp
  · unfold Run.asked
    simp only [if_true]
    rw [hb]
    simp only
    rw [C96_create, show (exeKind output).getD ((exeKind output).getD .xex) = .xex by
      cases he : exeKind output with
      | none => rfl
      | some k => cases k with
        | xex => rfl
        | bsave => exact absurd he hk]
    rw [show exeOf .xex segs (some r) = .ok x from g3]

/-! ### examples -/

/-- an executable: three bytes at 0x600, two at 0, run address 0x601 -/
def smallXex : Bytes := [0xff, 0xff, 0, 6, 2, 6, 1, 2, 3, 0, 0, 1, 0, 7, 8, 0xe0, 2, 0xe1, 2, 1, 6]

theorem smallXex_gives : Gives magicLibs smallXex [⟨0x600, [1, 2, 3]⟩] [0x601] :=
  C111_xex (l := [⟨.obj, 6, 0x600, [1, 2, 3]⟩, ⟨.obj, 13, 0, [7, 8]⟩, ⟨.run, 19, 0x2e0, [1, 6]⟩]) (other_small (by decide) (by decide))
    ((C18_grammar _ _).mp (by decide +kernel)) (by decide)

theorem smallBin_gives : Gives magicLibs [0, 8, 2, 0, 0xea, 0x60] [⟨0x800, [0xea, 0x60]⟩] [] := by
  obtain ⟨t, hd⟩ := detect_small.1
  exact gives_of hd (l := [.seg 0x800 [0xea, 0x60]]) rfl

/-- a file that nothing takes -/
theorem noObject_gives : Gives magicLibs [1, 2, 3, 4, 5] [] [] := by
  refine ⟨none, ?_, rfl, rfl⟩
  unfold objRead
  rw [detect_small.2.2]
  rfl

/-- `-d a@$2000 -b x y z` with an executable, a file that nothing takes and a BSAVE file: the data file comes first, the run address is that of the executable -/
example (W : World) (hW : W.libs = magicLibs) : ({ data := [["a@$2000".toList]], objs := [[ascii "x", ascii "y", ascii "z"]] } : AsmArgs).build W
      { files := [(ascii "a", [0xa9]), (ascii "x", smallXex), (ascii "y", [1, 2, 3, 4, 5]), (ascii "z", [0, 8, 2, 0, 0xea, 0x60])] } =
    .ok ([⟨0x2000, [0xa9]⟩, ⟨0x600, [1, 2, 3]⟩, ⟨0x800, [0xea, 0x60]⟩], some 0x601) := by
  refine C111_args W (gs := [⟨"a".toList, "$2000".toList, 0x2000, [0xa9]⟩])
    (os := [⟨ascii "x", [⟨0x600, [1, 2, 3]⟩], [0x601]⟩, ⟨ascii "y", [], []⟩, ⟨ascii "z", [⟨0x800, [0xea, 0x60]⟩], []⟩]) ?_ ?_ .none [] []
  · intro g hg
    rw [List.mem_singleton.mp hg]
    exact ⟨.dollar ⟨[('2', 2), ('0', 0), ('0', 0), ('0', 0)], by decide, by decide, by decide, by decide⟩, by decide, by decide, by decide +kernel⟩
  · rw [hW]
    intro o ho
    simp only [List.mem_cons, List.not_mem_nil, or_false] at ho
    rcases ho with rfl | rfl | rfl
    · exact ⟨by decide, _, by decide +kernel, smallXex_gives⟩
    · exact ⟨by decide, _, by decide +kernel, noObject_gives⟩
    · exact ⟨by decide, _, by decide +kernel, smallBin_gives⟩

/-- `atrcopy . assemble -b x -o c.xex` copies the executable that was built from one segment -/
example (W : World) (hW : W.libs = magicLibs) : ∃ x, getXex [⟨0x600, [1, 2, 3]⟩] none = .ok x ∧
    (Command.assemble false { objs := [[ascii "x"]] } (ascii "c.xex")).main W false [0x2e] { files := [(ascii "x", x)] } =
      (.ok (), Host.write { files := [(ascii "x", x)] } (ascii "c.xex") x) := by
  have hx : getXex [⟨0x600, [1, 2, 3]⟩] none = .ok [0xff, 0xff, 0xe0, 2, 0xe1, 2, 0, 6, 0, 6, 2, 6, 1, 2, 3] := by decide +kernel
  refine ⟨_, hx, ?_⟩
  have := (C111_reassemble_partial W (h := { files := [(ascii "x", [0xff, 0xff, 0xe0, 2, 0xe1, 2, 0, 6, 0, 6, 2, 6, 1, 2, 3])] }) (path := ascii "x") (output := ascii "c.xex")
    (by rw [hW]; exact other_small (by decide) (by decide)) (by simp [Seg.Wf]) (by simp) hx (by decide) (by decide +kernel) false false).1 (by decide +kernel)
  rw [this, if_neg (by decide +kernel)]

/-- a run address of one byte -/
example : objRead magicLibs [0xff, 0xff, 0xe0, 2, 0xe0, 2, 7] = .error .valueError :=
  C111_refuted_run (l := [⟨.run, 6, 0x2e0, [7]⟩]) (other_small (by decide) (by decide)) ((C18_grammar _ _).mp (by decide +kernel)) List.mem_cons_self rfl (by decide)

-- the boot disk of a program of 2000 bytes
example : ∃ x b, getXex [⟨0x600, List.replicate 2000 1⟩] none = .ok x ∧ createBootImage [⟨0x600, List.replicate 2000 1⟩] none = .ok b ∧
    Gives magicLibs b [⟨400, x⟩] [] := by
  have hg : ∀ d : Bytes, d.length = 2000 → ∃ x b, getXex [⟨0x600, d⟩] none = .ok x ∧ createBootImage [⟨0x600, d⟩] none = .ok b ∧
      Gives magicLibs b [⟨400, x⟩] [] := by
    intro d hd
    have hx : getXex [⟨0x600, d⟩] none = .ok ([0xff, 0xff] ++ [⟨0x2e0, enc16 0x600⟩, ⟨0x600, d⟩].flatMap xexPiece) := rfl
    generalize he : [0xff, 0xff] ++ [⟨0x2e0, enc16 0x600⟩, ⟨0x600, d⟩].flatMap xexPiece = x at hx
    have hxl : 1741 ≤ x.length ∧ x.length < 65536 := by
      rw [← he]
      simp only [List.flatMap_cons, List.flatMap_nil, List.length_append, xexPiece, hd, List.length_nil, List.length_cons, enc16]
      omega
    obtain ⟨b, h1, _⟩ := C21_partial (r := none) hx (by omega)
    refine ⟨x, b, hx, h1, C111_refuted_boot hx hxl h1 ?_⟩
    have h1' := h1
    unfold createBootImage at h1'
    rw [hx] at h1'
    obtain ⟨h, _, k2, _⟩ := C16_add_atr_header (addXexboot x)
    change addAtrHeader (addXexboot x) = .ok b at h1'
    rw [k2] at h1'
    injection h1' with h1'
    rw [← h1']
    exact plain_atr _
  exact hg _ List.length_replicate

/-- the disk of the package -/
example : Gives magicLibs sdDisk [] [] :=
  C111_refuted_atari ⟨holds_sd, atariFile_sd⟩ (by
    rw [sdDisk, blankImage, disk_sec (hdr := sdHeader) (pos := 16 + 359 * 128) (ss := 128) (h := sdH) rfl (by omega) (by omega) rfl (by decide)]
    decide)

/-- a DOS 3.3 disk with a binary file at 0x2000 -/
def binSec33 (s : Nat) : Bytes :=
  if s = 272 then vtocBlank33 else if s = 287 then oneCat33 else if s = 303 then List.replicate 12 0 ++ [18, 14] ++ List.replicate 242 0
  else if s = 302 then [0, 0x20, 1, 0, 0x60] ++ List.replicate 251 0 else List.replicate 256 0

theorem binSec33_length (s : Nat) : (binSec33 s).length = 256 := by
  unfold binSec33
  split
  · exact vtocBlank33_length
  · split
    · decide +kernel
    · split
      · decide +kernel
      · split
        · decide +kernel
        · exact List.length_replicate

/-- the blank disk gives DOS -/
example : Gives magicLibs blank33 (dosParts blank33) [] := by
  obtain ⟨segs, t, h1, _⟩ := C74_detected_partial mounted_blank33 (L := magicLibs) (by rw [mount33_bytes]; exact dos33File_blank _) rfl
  have hm : DImg.open blank33 = .ok (mount33 blank33 []) := by
    have := mounted_blank33.1
    rwa [mount33_bytes] at this
  have hd : Dos33File magicLibs blank33 := dos33File_blank _
  have hl : blank33.length = 143360 := by
    have := mounted_blank33.2.size
    rwa [mount33_bytes] at this
  have ho : OtherFile magicLibs blank33 := hd.other hl rfl
  have hf : blank33.take 2 ≠ [0xff, 0xff] := by
    have := hd.notXex
    rwa [take_sec33] at this
  exact (C111_refuted_dos33 ho hf hm h1).2
    (fun f hf => by rw [show (mount33 blank33 []).files = [] from rfl] at hf; cases hf)

/-- the other one an exception -/
example : ∃ b, b.length = 143360 ∧ objRead magicLibs b = .error .typeError := by
  have hs : ∀ s, s < 560 → sec33 (imgOf33 binSec33) s = binSec33 s := fun s h => sec33_flatMap binSec33_length h
  have h0 : sec33 (imgOf33 binSec33) 0 = List.replicate 256 0 := by
    rw [hs 0 (by omega)]; unfold binSec33; rw [if_neg (by omega), if_neg (by omega), if_neg (by omega), if_neg (by omega)]
  have h272 : sec33 (imgOf33 binSec33) 272 = vtocBlank33 := by
    rw [hs 272 (by omega)]; unfold binSec33; rw [if_pos rfl]
  have h287 : sec33 (imgOf33 binSec33) 287 = oneCat33 := by
    rw [hs 287 (by omega)]; unfold binSec33; rw [if_neg (by omega), if_pos rfl]
  have h302 : sec33 (imgOf33 binSec33) 302 = [0, 0x20, 1, 0, 0x60] ++ List.replicate 251 0 := by
    rw [hs 302 (by omega)]; unfold binSec33; rw [if_neg (by omega), if_neg (by omega), if_neg (by omega), if_pos rfl]
  have h303 : sec33 (imgOf33 binSec33) 303 = List.replicate 12 0 ++ [18, 14] ++ List.replicate 242 0 := by
    rw [hs 303 (by omega)]; unfold binSec33; rw [if_neg (by omega), if_neg (by omega), if_pos rfl]
  have hb := imgOf33_length binSec33_length
  generalize imgOf33 binSec33 = b at h0 h272 h287 h302 h303 hb
  refine ⟨b, hb, ?_⟩
  have hd : Dos33File magicLibs b := (dos33File_blank _).same (by rw [hb, blank33_template.size]) (by rw [h0, blank33_boot])
  have hm := open_one33 hb h0 h272 h287
  have hts : tsLoop 560 b 561 303 = .ok [(303, List.replicate 12 0 ++ [18, 14] ++ List.replicate 242 0)] := by
    have := tsLoop_eq hb (s := 303) (ts := [303]) (.cons (by omega) (by omega) (by rw [h303]; exact .nil)) 561 (by decide)
    rw [this, List.map_cons, h303]
    rfl
  have hmap : oneEntry33.tsMap 560 b = .ok ([303], [302, 0]) := by
    unfold DDirent.tsMap
    rw [show secOfTS oneEntry33.track oneEntry33.sector = 303 by decide, hts]
    decide +kernel
  have hg : oneEntry33.getFile 560 b = .ok (([0, 0x20, 1, 0, 0x60] ++ List.replicate 251 0) ++ List.replicate 256 0) := by
    unfold DDirent.getFile
    rw [if_neg (by decide), hmap]
    simp only
    rw [readPositions_ok _ (by decide)]
    simp only [List.map_cons, List.map_nil, List.flatMap_cons, List.flatMap_nil, List.append_nil]
    rw [show slice b (256 * 302) (256 * 302 + 256) = sec33 b 302 from rfl, show slice b (256 * 0) (256 * 0 + 256) = sec33 b 0 from rfl, h302, h0]
    rw [if_neg (fun h => by cases h), if_neg (by omega)]
  have hseg : ∃ segs, DImg.segments { bytes := b, firstDir := 287, maxSectors := 560, tsPairs := 122, files := [oneEntry33], allSane := true } = .ok segs := by
    unfold DImg.segments slice33
    simp only [show (0 : Nat) < 560 by omega, show (9 : Nat) < 560 by omega, show (11 : Nat) < 560 by omega, show (37 : Nat) < 560 by omega, show (272 : Nat) < 560 by omega, if_true]
    have hc : ∃ c, catChain33 560 b 561 287 = .ok c := by
      have e0 : catChain33 560 b 560 0 = .ok [] := by
        unfold catChain33
        rw [if_pos rfl]
      unfold catChain33
      rw [if_neg (by omega), if_neg (by omega), h287]
      simp only
      rw [if_neg (by decide +kernel), show linkOf oneCat33 = 0 by decide +kernel, e0]
      exact ⟨_, rfl⟩
    obtain ⟨c, hc⟩ := hc
    rw [hc]
    simp only [fileSegs, hg]
    exact ⟨_, rfl⟩
  obtain ⟨segs, hseg⟩ := hseg
  refine (C111_refuted_dos33 (hd.other hb rfl) (by have := hd.notXex; rwa [take_sec33] at this) hm hseg).1 ⟨oneEntry33, List.mem_cons_self, rfl, _, hg, ?_, ?_⟩
  · intro h
    have := congrArg List.length h
    rw [hb] at this
    revert this
    decide +kernel
  · decide +kernel

end Atr
