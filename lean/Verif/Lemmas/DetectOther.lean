import Verif.Props.Detect
import Verif.Props.CartOpen
import Verif.Props.Xex
import Verif.Props.Bsave
/-! # Files that are no Atari disks: what the parsers make of them -/
namespace Atr

theorem unusual_reject {τ : Type} {new : Bytes → Except Err τ} {hdr : τ → AHeader} {size : τ → Nat} {segs : τ → Except Err (List ISeg)}
    {wrap : τ × List ISeg → Image} {b : Bytes} (hn : ∀ e, new b = .error e → e.isAtr = true ∧ e ≠ .unsupportedDiskImage)
    (hx : ∀ m, new b = .ok m → ¬ ((hdr m).headerOffset = 16 ∨ size m ∈ xfdSizes)) :
    (diskClass new hdr size segs).parser wrap b true = .error .invalidSegmentParser := by
  rw [diskClass_parser]
  cases h : new b with
  | error e =>
    obtain ⟨h1, h2⟩ := hn e h
    simp only
    unfold sealErr
    rw [if_neg h2, if_pos h1]
  | ok m =>
    simp only
    rw [if_neg (hx m h)]

theorem parse_cases' (l : Bytes) : AHeader.parse l = .error .invalidAtrHeader ∨ (l.length = 16 ∧ l.take 2 = [0x96, 0x02]) := by
  unfold AHeader.parse
  split
  · rename_i m0 m1 _ _ _ _ _ _ _ _ _ _ _ _ _ _
    split
    · exact Or.inl rfl
    · rename_i hm
      refine Or.inr ⟨rfl, ?_⟩
      unfold le16 at hm
      have h0 := m0.toNat_lt
      have h1 := m1.toNat_lt
      have e0 : m0 = 0x96 := UInt8.toNat_inj.mp (by show m0.toNat = 150; omega)
      have e1 : m1 = 2 := UInt8.toNat_inj.mp (by show m1.toNat = 2; omega)
      rw [e0, e1]
      rfl
  · exact Or.inl rfl

/-- the header of a file without ATR header -/
theorem openHeader_plain {b : Bytes} (h : ¬ (16 ≤ b.length ∧ b.take 2 = [0x96, 0x02])) :
    ∃ h, openHeader b = .ok h ∧ h.headerOffset = 0 ∧ (h.sectorSize = 128 ∨ h.sectorSize = 256) := by
  have hp : AHeader.parse (slice b 0 16) = .error .invalidAtrHeader := by
    rcases parse_cases' (slice b 0 16) with hp | ⟨h1, h2⟩
    · exact hp
    · exfalso
      rw [length_slice] at h1
      refine h ⟨by omega, ?_⟩
      rw [slice_zero, List.take_take] at h2
      exact h2
  unfold openHeader readHeader
  rw [hp]
  simp only
  unfold AHeader.checkSize
  simp only
  repeat' split
  all_goals first
    | exact ⟨_, rfl, rfl, Or.inl rfl⟩
    | exact ⟨_, rfl, rfl, Or.inr rfl⟩
    | (exfalso; rename_i hc; exact absurd (show (128 : Nat) = 0 from hc) (by decide))
    | (exfalso; rename_i hc; exact absurd (show (256 : Nat) = 0 from hc) (by decide))

theorem kboot_errors {b : Bytes} {h : AHeader} (ho : openHeader b = .ok h) (hs : 3 ≤ h.sectorSize) {e : Err} (he : openKboot b = .error e) :
    e = .byteNotInFile ∨ e = .invalidDiskImage := by
  by_cases hm : 4 ≤ h.maxSectors
  · rw [openKboot_eq ho hs hm] at he
    split at he
    · cases he
    · injection he with he
      exact Or.inr he.symm
  · unfold openKboot kbootFile at he
    rw [ho] at he
    simp only at he
    rw [getPos_error (openHeader_geom ho) (by omega)] at he
    injection he with he
    exact Or.inl he.symm

theorem boot_errors {b : Bytes} {h : AHeader} (ho : openHeader b = .ok h) (hs : 4 ≤ h.sectorSize) {e : Err} (he : openBoot b = .error e) :
    e = .byteNotInFile ∨ e = .invalidDiskImage := by
  unfold openBoot at he
  rw [ho] at he
  simp only at he
  by_cases hm : 1 ≤ h.maxSectors
  · rw [bootCheckSize_eq (openHeader_geom ho) hs hm] at he
    split at he
    · cases he
    · injection he with he
      exact Or.inr he.symm
  · unfold bootCheckSize at he
    rw [getPos_error (openHeader_geom ho) (by omega)] at he
    injection he with he
    exact Or.inl he.symm

theorem sparta_errors {b : Bytes} {h : AHeader} (ho : openHeader b = .ok h) (hs : 33 ≤ h.sectorSize) (hn : 1 ≤ h.maxSectors → ¬ SpartaLike h b) :
    SImg.open b = .error .byteNotInFile ∨ SImg.open b = .error .invalidDiskImage := by
  unfold SImg.open
  rw [ho]
  simp only
  by_cases hm : 1 ≤ h.maxSectors
  · rw [spartaBoot_eq (openHeader_geom ho) hs hm, if_neg (hn hm)]
    exact Or.inr rfl
  · unfold spartaBoot
    rw [getSectors_one_eq, getPos_error (openHeader_geom ho) (by omega)]
    exact Or.inl rfl

/-- no parser of Atari disks takes a file without ATR header that has none of the usual sizes -/
theorem atr_none {b : Bytes} {h : AHeader} (ho : openHeader b = .ok h) (h0 : h.headerOffset = 0) (hss : h.sectorSize = 128 ∨ h.sectorSize = 256)
    (hx : b.length ∉ xfdSizes) (hn : 1 ≤ h.maxSectors → ¬ SpartaLike h b) : tryParsers true b atrParsers = .ok none := by
  have hun : ¬ (h.headerOffset = 16 ∨ b.length ∈ xfdSizes) := by
    rintro (h1 | h1)
    · omega
    · exact hx h1
  have h1 : kbootParser b true = .error .invalidSegmentParser := by
    refine unusual_reject (fun e he => ?_) (fun m hm => ?_)
    · rcases kboot_errors ho (by omega) he with rfl | rfl <;> exact ⟨rfl, by decide⟩
    · unfold openKboot at hm
      rw [ho] at hm
      simp only at hm
      cases hk : kbootFile b with
      | error e => rw [hk] at hm; cases hm
      | ok x =>
        rw [hk] at hm
        injection hm with hm
        rw [← hm]
        exact hun
  have h2 : spartaParser b true = .error .invalidSegmentParser := by
    refine unusual_reject (fun e he => ?_) (fun m hm => ?_)
    · rcases sparta_errors ho (by omega) hn with h | h <;> (rw [h] at he; injection he with he; subst he; exact ⟨rfl, by decide⟩)
    · rcases sparta_errors ho (by omega) hn with h | h <;> (rw [h] at hm; cases hm)
  have h3 : atariParser b true = .error .invalidSegmentParser := by
    refine unusual_reject (fun e he => ?_) (fun m hm => ?_)
    · rcases open_error ho (by omega) (by omega) he with rfl | rfl <;> exact ⟨rfl, by decide⟩
    · obtain ⟨e1, e2, _⟩ := open_first hm
      rw [ho] at e1
      injection e1 with e1
      rw [← e1, e2]
      exact hun
  have h4 : bootParser b true = .error .invalidSegmentParser := by
    refine unusual_reject (fun e he => ?_) (fun m hm => ?_)
    · rcases boot_errors ho (by omega) he with rfl | rfl <;> exact ⟨rfl, by decide⟩
    · unfold openBoot at hm
      rw [ho] at hm
      simp only at hm
      cases hk : bootCheckSize h b with
      | error e => rw [hk] at hm; cases hm
      | ok x =>
        rw [hk] at hm
        injection hm with hm
        rw [← hm]
        exact hun
  have h5 : diskParser b true = .error .invalidSegmentParser := by
    refine unusual_reject (fun e he => ?_) (fun m hm => ?_)
    · unfold openDisk at he
      rw [ho] at he
      cases he
    · unfold openDisk at hm
      rw [ho] at hm
      injection hm with hm
      rw [← hm]
      exact hun
  unfold atrParsers
  rw [try_step h1, try_step h2, try_step h3, try_step h4, try_step h5]
  rfl

/-! ### the other groups -/

theorem xexParser_eq (b : Bytes) : xexParser b true = match parseXex b with | .ok l => .ok (.xex l) | .error _ => .error .invalidSegmentParser := by
  unfold xexParser ImageClass.parser
  rw [parse_eq]
  unfold ImageClass.parseBody
  simp only [ImageClass.checkImage, if_true, Except.map]
  cases h : parseXex b with
  | ok l => rfl
  | error e => rw [C18_only_invalid b h]; rfl

/-- a cartridge of type `t` with header: number, machine and size fit -/
def CartOf (t : Nat) (five : Bool) (b : Bytes) : Prop :=
  HasCart b ∧ cartNumber b = t ∧ ∃ c ∈ knownCarts, c.id = t ∧ c.is5200 = five ∧ b.length = 16 + c.size * 1024

theorem cartParser_not {t : Nat} {five : Bool} {b : Bytes} (h : ¬ CartOf t five b) : cartParser five t b true = .error .invalidSegmentParser := by
  have hi := C65_strict_iff b t five
  have he := C65_errors b t five
  unfold cartParser ImageClass.parser
  rw [parse_eq]
  unfold ImageClass.parseBody
  simp only [ImageClass.checkImage, if_true, Except.map]
  cases ho : openCart b t with
  | error e => rw [he.1 e ho]; rfl
  | ok c =>
    simp only
    cases hs : cartStrictCheck c t five with
    | ok u => exact absurd (hi.mp ⟨c, ho, hs⟩) h
    | error e => rw [(he.2 c ho).1 e hs]; rfl

theorem cartParser_ok {t : Nat} {five : Bool} {b : Bytes} (h : CartOf t five b) : ∃ c, openCart b t = .ok c ∧ cartParser five t b true = .ok (.cart t five c) := by
  obtain ⟨c, ho, hs⟩ := (C65_strict_iff b t five).mpr h
  refine ⟨c, ho, ?_⟩
  unfold cartParser ImageClass.parser
  rw [parse_eq]
  unfold ImageClass.parseBody
  simp only [ImageClass.checkImage, if_true, Except.map]
  rw [ho]
  simp only
  rw [hs]

theorem carts_not {five : Bool} {b : Bytes} : ∀ l : List Nat, (∀ t ∈ l, ¬ CartOf t five b) → tryParsers true b (l.map (cartParser five)) = .ok none := by
  intro l
  induction l with
  | nil => intro _; rfl
  | cons t l ih =>
    intro h
    rw [List.map_cons, try_step (cartParser_not (h t (List.mem_cons_self ..)))]
    exact ih fun t ht => h t (List.mem_cons_of_mem _ ht)

theorem carts_ok {five : Bool} {b : Bytes} {t : Nat} (h : CartOf t five b) : ∀ l : List Nat, t ∈ l →
    ∃ c, openCart b t = .ok c ∧ tryParsers true b (l.map (cartParser five)) = .ok (some (.cart t five c)) := by
  intro l
  induction l with
  | nil => intro ht; cases ht
  | cons x l ih =>
    intro ht
    by_cases hx : x = t
    · subst hx
      obtain ⟨c, h1, h2⟩ := cartParser_ok h
      refine ⟨c, h1, ?_⟩
      rw [List.map_cons, try_take h2]
    · obtain ⟨c, h1, h2⟩ := ih ((List.mem_cons.mp ht).resolve_left (fun h => hx h.symm))
      refine ⟨c, h1, ?_⟩
      rw [List.map_cons, try_step (cartParser_not (fun hc => hx (hc.2.1.symm.trans h.2.1)))]
      exact h2

theorem mameParser_not {zip : Bytes → Except Err (Option (List ZipItem))} {b : Bytes} (h : zip b = .ok none) :
    mameParser zip b true = .error .invalidSegmentParser := by
  unfold mameParser ImageClass.parser
  rw [parse_eq]
  unfold ImageClass.parseBody
  simp only
  rw [h]
  rfl

theorem dos33Parser_eq (b : Bytes) : dos33Parser b true = match DImg.open b with
    | .error e => .error (sealErr e)
    | .ok m => match m.segments with
      | .error e => .error (sealErr e)
      | .ok s => .ok (.dos33 m s) := by
  unfold dos33Parser ImageClass.parser
  rw [parse_eq]
  unfold ImageClass.parseBody
  simp only [ImageClass.checkImage, if_true, Except.map]
  cases h : DImg.open b with
  | error e => rfl
  | ok m =>
    simp only
    cases hs : m.segments with
    | error e => rfl
    | ok s => rfl

theorem prodosParser_eq (b : Bytes) : prodosParser b true =
    .error (if b.length = 143360 ∧ slice b 0 4 = [1, 56, 176, 3] then .unsupportedDiskImage else .invalidSegmentParser) := by
  unfold prodosParser ImageClass.parser
  rw [parse_eq]
  unfold ImageClass.parseBody openProdos
  simp only
  by_cases h1 : b.length = 143360
  · rw [if_neg (by omega)]
    by_cases h2 : slice b 0 4 = [1, 56, 176, 3]
    · rw [if_pos h2, if_pos ⟨h1, h2⟩]; rfl
    · rw [if_neg h2, if_neg (fun c => h2 c.2)]; rfl
  · rw [if_pos h1, if_neg (fun c => h1 c.1)]; rfl

theorem binParser_eq (b : Bytes) : binParser b true = match parseBsave b with | .ok s => .ok (.bin s) | .error _ => .error .invalidSegmentParser := by
  unfold binParser ImageClass.parser
  rw [parse_eq]
  unfold ImageClass.parseBody
  simp only [ImageClass.checkImage, if_true, Except.map]
  have : ∀ e, parseBsave b = .error e → e = .invalidBinaryFile := by
    intro e he
    unfold parseBsave at he
    simp only at he
    repeat' split at he
    all_goals first | (injection he with he; exact he.symm) | cases he
  cases h : parseBsave b with
  | ok l => rfl
  | error e => rw [this e h]; rfl

theorem romParser_eq (b : Bytes) : romParser b true = match romCheckSize b.length with | .ok _ => .ok (.rom b) | .error _ => .error .invalidSegmentParser := by
  unfold romParser ImageClass.parser
  rw [parse_eq]
  unfold ImageClass.parseBody
  simp only [ImageClass.checkImage, if_true, Except.map]
  cases h : romCheckSize b.length with
  | ok u => simp only; rw [h]
  | error e =>
    unfold romCheckSize at h
    generalize (if b.length = 0 then 0 else b.length &&& (b.length - 1)) = x at h
    split at h
    · injection h with h; subst h; rfl
    · cases h

theorem guessDetail_other {m : Mime} (b : Bytes) (h1 : m ≠ .atr) : ∃ t, guessDetail m b = .ok t := by
  have key : ∀ l : List (Mime × Mime × List SigItem), (∀ e ∈ l, e.2.1 = m → ∀ s ∈ e.2.2, ∀ i x, s = .byte i x → i < b.length) →
      ∃ t, guessDetailGo m b l = .ok t := by
    intro l
    induction l with
    | nil => intro _; exact ⟨m, rfl⟩
    | cons e l ih =>
      intro h
      obtain ⟨detail, base, sig⟩ := e
      rw [guessDetailGo]
      have hr := ih fun e he => h e (List.mem_cons_of_mem _ he)
      split
      · rename_i hbase
        obtain ⟨r, hc⟩ := checkSignature_long sig (h _ (List.mem_cons_self ..) hbase)
        rw [hc]
        cases r with
        | true => exact ⟨detail, rfl⟩
        | false => exact hr
      · exact hr
  refine key magicTable ?_
  have hb : ∀ e ∈ magicTable, e.2.1 = .atr ∨ ∀ s ∈ e.2.2, (match s with | .byte _ _ => false | _ => true) = true := by decide +kernel
  intro e he hm s hs i x hx
  rcases hb e he with h | h
  · exact absurd (hm.symm.trans h) h1
  · have := h s hs
    rw [hx] at this
    cases this

end Atr
