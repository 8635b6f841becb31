import Verif.Lemmas.DetectOther
import Verif.Props.DetectAtari
/-!
# C71: what a file without ATR header is taken for

The complete decision for files that have no ATR header and none of the four sizes of headerless Atari disks: executable,
cartridge, DOS 3.3 disk, BSAVE file, ROM of a power of two bytes, in this order; everything else is refused.
-/
namespace Atr

/-- A file that is no Atari disk: no ATR header, none of the sizes of headerless disks, and no container, zip archive or entry
of the signature database.  (Read as a disk it must not look like SpartaDOS, because the SpartaDOS parser reads the
directory before it checks the size.) -/
structure OtherFile (L : Libs) (b : Bytes) : Prop where
  plain : L.Plain b
  magic : ¬ (16 ≤ b.length ∧ b.take 2 = [0x96, 0x02])
  size : b.length ∉ xfdSizes
  sparta : ∀ h, openHeader b = .ok h → 1 ≤ h.maxSectors → ¬ SpartaLike h b
  zip : L.zip b = .ok none

theorem mime_skip {zip} {b : Bytes} {m : Mime} {ms : List Mime} (h : tryParsers true b (imageParsers zip m) = .ok none) :
    findByMime (imageParsers zip) b (m :: ms) = findByMime (imageParsers zip) b ms := by
  rw [findByMime, h]

theorem mime_take {zip} {b : Bytes} {m : Mime} {ms : List Mime} {x : Image} (h : tryParsers true b (imageParsers zip m) = .ok (some x)) (hm : m ≠ .atr) :
    ∃ t, findByMime (imageParsers zip) b (m :: ms) = .ok (x, t) := by
  obtain ⟨t, ht⟩ := guessDetail_other b hm
  refine ⟨t, ?_⟩
  rw [findByMime, h]
  simp only
  rw [ht]

theorem detect_other {L : Libs} {b : Bytes} (d : OtherFile L b) :
    detect L b = liftErr (findByMime (imageParsers L.zip) b [.xex, .cart8, .cart5200, .mame, .appleDsk, .appleBin, .rom]) := by
  obtain ⟨h, h1, h2, h3⟩ := openHeader_plain d.magic
  rw [detect_plain d.plain]
  unfold mimeParseOrder
  rw [mime_skip (atr_none h1 h2 h3 d.size (d.sparta h h1))]

/-- an executable in the format of C18: empty, a single byte, or starting with 0xffff and well-formed from there on -/
def XexFile (b : Bytes) (l : List XSeg) : Prop := (b.length ≤ 1 ∨ ∃ r, b = 0xff :: 0xff :: r) ∧ XexBody 0 b l

/-- **C71, executables.** -/
theorem C71_xex {L : Libs} {b : Bytes} {l : List XSeg} (d : OtherFile L b) (hx : XexFile b l) : ∃ t, detect L b = .ok (.xex l, t) := by
  rw [detect_other d]
  have hp := xexParser_eq b
  rw [(C18_grammar b l).mpr hx] at hp
  obtain ⟨t, ht⟩ := mime_take (zip := L.zip) (m := .xex) (ms := [.cart8, .cart5200, .mame, .appleDsk, .appleBin, .rom]) (try_take (ps := []) hp) (by decide)
  exact ⟨t, by rw [ht]; rfl⟩

theorem skip_xex {zip} {b : Bytes} {ms : List Mime} (hx : ∀ l, ¬ XexFile b l) :
    findByMime (imageParsers zip) b (.xex :: ms) = findByMime (imageParsers zip) b ms := by
  apply mime_skip
  have hp := xexParser_eq b
  cases h : parseXex b with
  | ok l => exact absurd ((C18_grammar b l).mp h) (hx l)
  | error e =>
    rw [h] at hp
    show tryParsers true b [xexParser] = _
    rw [try_step hp]
    rfl

theorem not_xex_cart {b : Bytes} (h : HasCart b) : ∀ l, ¬ XexFile b l := by
  rintro l ⟨h1 | ⟨r, h1⟩, _⟩
  · have := h.1; omega
  · have := h.2
    rw [h1] at this
    injection this with this _
    revert this
    decide

theorem cartTypes_mem {t : Nat} {five : Bool} {c : CartType} (hc : c ∈ knownCarts) (hi : c.id = t) (hf : c.is5200 = five) : t ∈ cartTypes five := by
  have hk : knownCarts = knownCarts.head (by decide) :: knownCarts.tail := (List.cons_head_tail _).symm
  have h0 : (knownCarts.head (by decide)).id = 0 := by decide
  unfold cartTypes
  rw [hk] at hc
  rcases List.mem_cons.mp hc with h | h
  · rw [← hi, h, h0]
    exact List.mem_cons_self ..
  · refine List.mem_cons_of_mem _ (List.mem_map.mpr ⟨c, List.mem_filter.mpr ⟨List.mem_mergeSort.mpr h, ?_⟩, hi⟩)
    rw [hf]
    simp

/-- **C71, cartridges.** A file with a CART header whose type number is known and whose size fits is taken for a cartridge of
this type, of the machine that the table says. -/
theorem C71_cart {L : Libs} {b : Bytes} {t : Nat} {five : Bool} (d : OtherFile L b) (hc : CartOf t five b) :
    ∃ k h, openCart b t = .ok h ∧ detect L b = .ok (.cart t five h, k) := by
  obtain ⟨c, hk, hi, hf, _⟩ := hc.2.2
  obtain ⟨h, h1, h2⟩ := carts_ok hc (cartTypes five) (cartTypes_mem hk hi hf)
  rw [detect_other d, skip_xex (not_xex_cart hc.1)]
  cases five with
  | false =>
    obtain ⟨k, e⟩ := mime_take (zip := L.zip) (m := .cart8) (ms := [.cart5200, .mame, .appleDsk, .appleBin, .rom]) h2 (by decide)
    exact ⟨k, h, h1, by rw [e]; rfl⟩
  | true =>
    rw [mime_skip (m := .cart8) (carts_not _ (fun t' _ hc' => by
      obtain ⟨c', hk', hi', hf', _⟩ := hc'.2.2
      have := row_unique hk hk' (by rw [hi, hi', ← hc.2.1, ← hc'.2.1])
      rw [← this, hf] at hf'
      cases hf'))]
    obtain ⟨k, e⟩ := mime_take (zip := L.zip) (m := .cart5200) (ms := [.mame, .appleDsk, .appleBin, .rom]) h2 (by decide)
    exact ⟨k, h, h1, by rw [e]; rfl⟩

theorem skip_carts {L : Libs} {b : Bytes} (d : OtherFile L b) (hx : ∀ l, ¬ XexFile b l) (hc : ∀ t five, ¬ CartOf t five b) :
    detect L b = liftErr (findByMime (imageParsers L.zip) b [.appleDsk, .appleBin, .rom]) := by
  rw [detect_other d, skip_xex hx, mime_skip (m := .cart8) (carts_not _ (fun t _ => hc t false)),
    mime_skip (m := .cart5200) (carts_not _ (fun t _ => hc t true)), mime_skip (m := .mame)]
  show tryParsers true b [mameParser L.zip] = _
  rw [try_step (mameParser_not d.zip)]
  rfl

theorem not_cart_size {b : Bytes} (hl : b.length = 143360) (t : Nat) (five : Bool) : ¬ CartOf t five b := by
  rintro ⟨_, _, c, _, _, _, h⟩
  omega

/-- **C71, DOS 3.3.** A file of 143360 bytes that does not start with 0xffff and opens as DOS 3.3 is taken for a DOS 3.3 disk,
provided its segments can be made. -/
theorem C71_dos33 {L : Libs} {b : Bytes} {m : DImg} {segs} (d : OtherFile L b) (hf : b.take 2 ≠ [0xff, 0xff]) (hm : DImg.open b = .ok m)
    (hs : m.segments = .ok segs) : ∃ t, detect L b = .ok (.dos33 m segs, t) := by
  have hl : b.length = 143360 := by
    unfold DImg.open at hm
    by_cases h : b.length ≠ 143360
    · rw [if_pos h] at hm; cases hm
    · omega
  have hx : ∀ l, ¬ XexFile b l := by
    rintro l ⟨h1 | ⟨r, h1⟩, _⟩
    · omega
    · exact hf (by rw [h1]; rfl)
  rw [skip_carts d hx (not_cart_size hl)]
  have hp := dos33Parser_eq b
  rw [hm] at hp
  simp only at hp
  rw [hs] at hp
  obtain ⟨t, ht⟩ := mime_take (zip := L.zip) (m := .appleDsk) (ms := [.appleBin, .rom]) (try_take (ps := [prodosParser]) hp) (by decide)
  exact ⟨t, by rw [ht]; rfl⟩

/-- a BSAVE file: address, length, and as many bytes -/
def BsaveFile (b : Bytes) (s : Seg) : Prop :=
  ∃ a0 a1 c0 c1 d, b = a0 :: a1 :: c0 :: c1 :: d ∧ d.length = le16 c0 c1 ∧ s = ⟨le16 a0 a1, d⟩

theorem bsaveFile_iff (b : Bytes) (s : Seg) : parseBsave b = .ok s ↔ BsaveFile b s := by
  unfold BsaveFile
  constructor
  · intro h
    unfold parseBsave at h
    split at h
    · rename_i a0 a1 c0 c1 d
      simp only at h
      split at h
      · cases h
      · rename_i hc
        split at h
        · rename_i hl
          injection h with h
          have hlen : d.length = le16 c0 c1 := by simp only [List.length_cons] at hc; omega
          exact ⟨a0, a1, c0, c1, d, rfl, hlen, by rw [← h, List.take_of_length_le (by omega)]⟩
        · cases h
    · cases h
  · rintro ⟨a0, a1, c0, c1, d, rfl, h1, rfl⟩
    unfold parseBsave
    simp only
    rw [if_neg (by simp only [List.length_cons]; omega), List.take_of_length_le (by omega), if_pos h1]

/-- **C71, the rest.** All other files but DOS 3.3 disks: BSAVE files are taken for such, then ROMs of a power of two bytes; the rest
is refused with `UnsupportedDiskImage`. -/
theorem C71_rest {L : Libs} {b : Bytes} (d : OtherFile L b) (hx : ∀ l, ¬ XexFile b l) (hc : ∀ t five, ¬ CartOf t five b) (hl : b.length ≠ 143360) :
    (∀ s, BsaveFile b s → ∃ t, detect L b = .ok (.bin s, t)) ∧
    ((∀ s, ¬ BsaveFile b s) → (∃ k, b.length = 2 ^ k) → ∃ t, detect L b = .ok (.rom b, t)) ∧
    ((∀ s, ¬ BsaveFile b s) → (¬ ∃ k, b.length = 2 ^ k) → detect L b = .error (.py .unsupportedDiskImage)) := by
  have h33 : tryParsers true b (imageParsers L.zip .appleDsk) = .ok none := by
    have hp := dos33Parser_eq b
    have ho : DImg.open b = .error .invalidDiskImage := by
      unfold DImg.open
      rw [if_pos hl]
    rw [ho] at hp
    have hq := prodosParser_eq b
    rw [if_neg (fun h => hl h.1)] at hq
    show tryParsers true b [dos33Parser, prodosParser] = _
    rw [try_step hp, try_step hq]
    rfl
  rw [skip_carts d hx hc, mime_skip h33]
  have hp := binParser_eq b
  have hr := romParser_eq b
  have h0 : b.length ≠ 0 := by
    intro h0
    refine hx [] ⟨Or.inl (by omega), ?_⟩
    rw [List.length_eq_zero_iff.mp h0]
    exact XexBody.done
  refine ⟨fun s hs => ?_, fun hs hk => ?_, fun hs hk => ?_⟩
  · rw [(bsaveFile_iff b s).mpr hs] at hp
    obtain ⟨t, ht⟩ := mime_take (zip := L.zip) (m := .appleBin) (ms := [.rom]) (try_take (ps := []) hp) (by decide)
    exact ⟨t, by rw [ht]; rfl⟩
  · cases h : parseBsave b with
    | ok s => exact absurd ((bsaveFile_iff b s).mp h) (hs s)
    | error e =>
      rw [h] at hp
      rw [mime_skip (m := .appleBin) (show tryParsers true b [binParser] = _ by rw [try_step hp]; rfl)]
      rw [(C33_rom b.length).mpr (Or.inr hk)] at hr
      obtain ⟨t, ht⟩ := mime_take (zip := L.zip) (m := .rom) (ms := []) (try_take (ps := []) hr) (by decide)
      exact ⟨t, by rw [ht]; rfl⟩
  · cases h : parseBsave b with
    | ok s => exact absurd ((bsaveFile_iff b s).mp h) (hs s)
    | error e =>
      rw [h] at hp
      rw [mime_skip (m := .appleBin) (show tryParsers true b [binParser] = _ by rw [try_step hp]; rfl)]
      cases hc : romCheckSize b.length with
      | ok u =>
        rcases (C33_rom b.length).mp hc with h | h
        · exact absurd h h0
        · exact absurd h hk
      | error e =>
        rw [hc] at hr
        rw [mime_skip (m := .rom) (show tryParsers true b [romParser] = _ by rw [try_step hr]; rfl)]
        rfl

/-! ### examples -/

/-- a file too short for a sector, with a first byte that is no magic number -/
theorem other_small {x : UInt8} {r : Bytes} (hl : (x :: r).length < 128) (hx : x ∉ [0x96, 0x1f, 0x42, 0xfd, 0xf9, 0xfa]) :
    OtherFile magicLibs (x :: r) := by
  simp only [List.mem_cons, List.not_mem_nil, or_false, not_or] at hx
  obtain ⟨h1, h2, h3, h4, h5, h6⟩ := hx
  refine ⟨⟨Or.inl ?_, Or.inl ?_, Or.inl ?_, ?_, rfl⟩, ?_, ?_, ?_, rfl⟩
  · simp [magicLibs, h2]
  · simp [magicLibs, h3]
  · simp [magicLibs, h4]
  · rintro ⟨a, b, q, h, ha, _⟩
    injection h with h _
    subst h
    rcases ha with ha | ha
    · exact h5 (UInt8.toNat_inj.mp ha)
    · exact h6 (UInt8.toNat_inj.mp ha)
  · rintro ⟨_, h⟩
    cases r with
    | nil => cases h
    | cons y r => injection h with h _; exact h1 h
  · intro h
    simp only [xfdSizes, List.mem_cons, List.not_mem_nil, or_false] at h
    omega
  · intro h ho hm
    exfalso
    obtain ⟨h', e1, e2, e3⟩ := openHeader_plain (b := x :: r) (by
      rintro ⟨_, h⟩
      cases r with
      | nil => cases h
      | cons y r => injection h with h _; exact h1 h)
    rw [ho] at e1
    injection e1 with e1
    subst e1
    have g := openHeader_geom ho
    have hf := g.fit
    have hmax := g.max
    rcases g.inits with ⟨i1, i2⟩ | ⟨_, _, _, i4⟩
    · rw [i1, i2, Nat.div_eq_of_lt (by omega)] at hmax
      omega
    · omega

/-- an executable of one segment of three bytes at 0x0600 -/
example : ∃ t, detect magicLibs [0xff, 0xff, 0, 6, 2, 6, 1, 2, 3] = .ok (.xex [⟨.obj, 6, 0x600, [1, 2, 3]⟩], t) :=
  C71_xex (other_small (by decide) (by decide)) ⟨Or.inr ⟨_, rfl⟩,
    .marker (.seg (pos := 2) (s0 := 0) (s1 := 6) (e0 := 2) (e1 := 6) (d := [1, 2, 3]) (rest := []) (by decide) (by decide) (by decide) .done)⟩

/-- a file of a single byte is taken for an executable, too -/
example : ∃ t, detect magicLibs [7] = .ok (.xex [⟨.odd, 0, 0, [7]⟩], t) :=
  C71_xex (other_small (by decide) (by decide)) ⟨Or.inl (by decide), .odd⟩

/-- three files that are no executables: a BSAVE file, four bytes, five bytes -/
theorem detect_small : (∃ t, detect magicLibs [0, 8, 2, 0, 0xea, 0x60] = .ok (.bin ⟨0x800, [0xea, 0x60]⟩, t)) ∧
    (∃ t, detect magicLibs [1, 2, 3, 4] = .ok (.rom [1, 2, 3, 4], t)) ∧
    detect magicLibs [1, 2, 3, 4, 5] = .error (.py .unsupportedDiskImage) := by
  have hx : ∀ (x : UInt8) (r : Bytes), x ≠ 0xff → r ≠ [] → ∀ l, ¬ XexFile (x :: r) l := by
    rintro x r h1 h2 l ⟨h | ⟨q, h⟩, _⟩
    · cases r with
      | nil => exact h2 rfl
      | cons y r => simp only [List.length_cons] at h; omega
    · injection h with h _
      exact h1 h
  have hc : ∀ (b : Bytes), b.length < 16 → ∀ t five, ¬ CartOf t five b := by
    rintro b hb t five ⟨_, _, c, _, _, _, h⟩
    omega
  have hb : ∀ (a0 a1 c0 c1 : UInt8) (d : Bytes), d.length ≠ le16 c0 c1 → ∀ s, ¬ BsaveFile (a0 :: a1 :: c0 :: c1 :: d) s := by
    rintro a0 a1 c0 c1 d hd s ⟨_, _, _, _, _, h, h2, _⟩
    simp only [List.cons.injEq] at h
    obtain ⟨_, _, rfl, rfl, rfl⟩ := h
    exact hd h2
  refine ⟨?_, ?_, ?_⟩
  · exact (C71_rest (other_small (by decide) (by decide)) (hx _ _ (by decide) (by decide)) (hc _ (by decide)) (by decide)).1 _
      ⟨0, 8, 2, 0, [0xea, 0x60], rfl, by decide, by decide⟩
  · exact (C71_rest (other_small (by decide) (by decide)) (hx _ _ (by decide) (by decide)) (hc _ (by decide)) (by decide)).2.1
      (hb _ _ _ _ _ (by decide)) ⟨2, rfl⟩
  · refine (C71_rest (other_small (by decide) (by decide)) (hx _ _ (by decide) (by decide)) (hc _ (by decide)) (by decide)).2.2
      (hb _ _ _ _ _ (by decide)) ?_
    rintro ⟨k, hk⟩
    have : ∀ k, k < 3 → 5 ≠ 2 ^ k := by decide
    by_cases h3 : k < 3
    · exact this k h3 hk
    · have := Nat.pow_le_pow_right (show 0 < 2 by omega) (show 3 ≤ k by omega)
      simp only [List.length_cons, List.length_nil] at hk
      omega

end Atr
