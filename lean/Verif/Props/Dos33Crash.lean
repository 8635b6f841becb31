import Verif.Props.Dos33Read
import Verif.Props.DetectDos33
/-!
# C76: which DOS 3.3 disks every command crashes on
-/
namespace Atr

/-- what opening gives: the number of sectors and the start of the catalog are those of the VTOC, the files are the sane entries -/
theorem open33_ok {b : Bytes} {m : DImg} (h : DImg.open b = .ok m) : b.length = 143360 ∧ m.bytes = b ∧ m.firstDir < m.maxSectors ∧
    ∃ ds, catLoop m.maxSectors b (m.maxSectors + 1) m.firstDir 0 = .ok ds ∧ m.files = ds.filter (fun d => d.isSane && !d.deleted) ∧
      ∀ d ∈ ds, d.isSane = true := by
  unfold DImg.open at h
  by_cases hb : b.length ≠ 143360
  · rw [if_pos hb] at h; cases h
  rw [if_neg hb] at h
  unfold DImg.getMetadata at h
  cases hi : DImg.getBootInfo { bytes := b } with
  | error e => rw [hi] at h; cases h
  | ok u =>
    rw [hi] at h
    simp only at h
    unfold DImg.getVtoc at h
    simp only at h
    cases hv : getSec33 560 b 272 with
    | error e => rw [hv] at h; cases h
    | ok v =>
      rw [hv] at h
      simp only at h
      by_cases hf : secOfTS (v.getD 1 0) (v.getD 2 0) < (v.getD 0x34 0).toNat * (v.getD 0x35 0).toNat
      · rw [if_pos hf] at h
        simp only at h
        unfold DImg.getDirectory at h
        simp only at h
        generalize hn : (v.getD 0x34 0).toNat * (v.getD 0x35 0).toNat = n at h hf
        generalize hs : secOfTS (v.getD 1 0) (v.getD 2 0) = s at h hf
        cases hc : catLoop n b (n + 1) s 0 with
        | error e => rw [hc] at h; cases h
        | ok ds =>
          rw [hc] at h
          simp only [Bool.true_and] at h
          by_cases ha : ds.all (·.isSane) = true
          · rw [if_pos ha] at h
            simp only at h
            injection h with h
            subst h
            exact ⟨by omega, rfl, hf, ds, hc, rfl, fun d hd => List.all_eq_true.mp ha d hd⟩
          · rw [if_neg ha] at h
            cases h
      · rw [if_neg hf] at h
        cases h

theorem catChain_of_catLoop {n : Nat} {b : Bytes} : ∀ (fuel s num : Nat) (ds : List DDirent), catLoop n b fuel s num = .ok ds →
    ∃ c, catChain33 n b fuel s = .ok c := by
  intro fuel
  induction fuel with
  | zero => intro s num ds h; cases h
  | succ fuel ih =>
    intro s num ds h
    unfold catLoop at h
    unfold catChain33
    by_cases h0 : s = 0
    · rw [if_pos h0]; exact ⟨_, rfl⟩
    rw [if_neg h0] at h ⊢
    by_cases h1 : s < n
    · rw [if_neg (not_not_intro h1)] at h ⊢
      simp only at h ⊢
      by_cases h2 : (sec33 b s).length = 256
      · rw [if_neg (not_not_intro h2)] at h ⊢
        cases h3 : catLoop n b fuel (linkOf (sec33 b s)) (num + (scanCatSec n num (catEntries (sec33 b s))).length) with
        | error e => rw [h3] at h; cases h
        | ok r =>
          obtain ⟨c, hc⟩ := ih _ _ _ h3
          rw [hc]
          exact ⟨_, rfl⟩
      · rw [if_pos h2] at h; cases h
    · rw [if_pos h1] at h; cases h

/-- what can go wrong while a file is read -/
theorem getFile33_errors {n : Nat} {b : Bytes} {d : DDirent} (hb : b.length = 143360) (hd : d.isSane = true) :
    (∃ x, d.getFile n b = .ok x) ∨ d.getFile n b = .error .byteNotInFile ∨ d.getFile n b = .error .nameError ∨
    d.getFile n b = .error .indexError ∨ d.getFile n b = .error .hang := by
  obtain ⟨h1, h2, h3⟩ := C75_outcome (n := n) hb hd
  by_cases hc : ∃ ts, ListChain33 n b (secOfTS d.track d.sector) ts
  · obtain ⟨ts, hc⟩ := hc
    obtain ⟨g1, g2, g3, g4, g5⟩ := h1 ts _ hc rfl
    generalize dataSectors33 b d.numSectors ts = map at g1 g2 g3 g4 g5
    cases map with
    | nil => exact Or.inr (Or.inr (Or.inl (g2 (Or.inl rfl))))
    | cons s r =>
      by_cases hx : ∃ x ∈ s :: r, n ≤ x
      · exact Or.inr (Or.inr (Or.inl (g2 (Or.inr hx))))
      have hx : ∀ x ∈ s :: r, x < n := fun x h => Nat.lt_of_not_le fun h' => hx ⟨x, h, h'⟩
      by_cases hs : s < 560
      · exact Or.inl ⟨_, g4 s r rfl hx hs⟩
      by_cases hr : ∃ x ∈ r, x < 560
      · have := g3 s r rfl hx (by omega) hr
        by_cases ht : d.ftype = 4
        · rw [if_pos ht] at this; exact Or.inr (Or.inr (Or.inr (Or.inl this)))
        · rw [if_neg ht] at this; exact Or.inl ⟨_, this⟩
      · refine Or.inl ⟨_, g5 (by simp) fun x h => ⟨hx x h, ?_⟩⟩
        rcases List.mem_cons.mp h with rfl | h
        · omega
        · exact Nat.le_of_not_lt fun h' => hr ⟨x, h, h'⟩
  · by_cases ho : ListOut33 n b (secOfTS d.track d.sector)
    · exact Or.inr (Or.inl (h2 ho))
    · exact Or.inr (Or.inr (Or.inr (Or.inr (h3 (fun ts h => hc ⟨ts, h⟩) ho))))

theorem fileSegs_caught {δ : Type} {name : δ → Bytes} {get : δ → Except Err Bytes} {b : Bytes} : ∀ (ds : List δ),
    (∀ d ∈ ds, (∃ x, get d = .ok x) ∨ ∃ e, get d = .error e ∧ e.isInvalidFile = true) → ∃ ss, fileSegs name get b ds = .ok ss ∧
      ss.length = ds.length := by
  intro ds
  induction ds with
  | nil => intro _; exact ⟨[], rfl, rfl⟩
  | cons d ds ih =>
    intro h
    obtain ⟨ss, hs, hl⟩ := ih fun d hd => h d (List.mem_cons_of_mem _ hd)
    unfold fileSegs
    rcases h d (List.mem_cons_self ..) with ⟨x, hx⟩ | ⟨e, he, hi⟩
    · rw [hx, hs]
      exact ⟨_, rfl, by simp [hl]⟩
    · rw [he, hs]
      simp only
      rw [if_pos hi]
      exact ⟨_, rfl, by simp [hl]⟩

theorem fileSegs_crash {δ : Type} {name : δ → Bytes} {get : δ → Except Err Bytes} {b : Bytes} : ∀ (ds : List δ),
    (∃ d ∈ ds, ∃ e, get d = .error e ∧ e.isInvalidFile = false) → ∃ d ∈ ds, ∃ e, get d = .error e ∧ e.isInvalidFile = false ∧
      fileSegs name get b ds = .error e := by
  intro ds
  induction ds with
  | nil => rintro ⟨_, h, _⟩; cases h
  | cons d ds ih =>
    rintro ⟨d', hd', e', he', hi'⟩
    unfold fileSegs
    by_cases hd : ∃ e, get d = .error e ∧ e.isInvalidFile = false
    · obtain ⟨e, he, hi⟩ := hd
      refine ⟨d, List.mem_cons_self .., e, he, hi, ?_⟩
      rw [he]
      simp only
      rw [hi]
      rfl
    · obtain ⟨d2, h2, e2, g1, g2, g3⟩ := ih ⟨d', (List.mem_cons.mp hd').resolve_left (fun h => hd ⟨e', h ▸ he', hi'⟩), e', he', hi'⟩
      refine ⟨d2, List.mem_cons_of_mem _ h2, e2, g1, g2, ?_⟩
      rw [g3]
      cases hg : get d with
      | ok x => rfl
      | error e =>
        simp only
        cases hi : e.isInvalidFile with
        | true => rfl
        | false => exact absurd ⟨e, hg, hi⟩ hd

/-- A file whose reading raises an exception that is not an `InvalidFile`: its list of sectors goes round in circles; or it has no data
sectors; or one of them is not below the number of sectors of the disk; or it is a binary file, its first data sector is
beyond the end of the image, and a later one is not. -/
def Fatal33 (n : Nat) (b : Bytes) (d : DDirent) : Prop :=
  ((∀ ts, ¬ ListChain33 n b (secOfTS d.track d.sector) ts) ∧ ¬ ListOut33 n b (secOfTS d.track d.sector)) ∨
  ∃ ts, ListChain33 n b (secOfTS d.track d.sector) ts ∧
    (dataSectors33 b d.numSectors ts = [] ∨ (∃ s ∈ dataSectors33 b d.numSectors ts, n ≤ s) ∨
      d.ftype = 4 ∧ ∃ s r, dataSectors33 b d.numSectors ts = s :: r ∧ 560 ≤ s ∧ ∃ x ∈ r, x < 560)

theorem fatal33_iff {n : Nat} {b : Bytes} {d : DDirent} (hb : b.length = 143360) (hd : d.isSane = true) :
    Fatal33 n b d ↔ ∃ e, d.getFile n b = .error e ∧ e.isInvalidFile = false := by
  obtain ⟨h1, h2, h3⟩ := C75_outcome (n := n) hb hd
  constructor
  · rintro (⟨c, o⟩ | ⟨ts, hc, h⟩)
    · exact ⟨_, h3 c o, rfl⟩
    · obtain ⟨g1, g2, g3, g4, g5⟩ := h1 ts _ hc rfl
      by_cases hx : dataSectors33 b d.numSectors ts = [] ∨ ∃ s ∈ dataSectors33 b d.numSectors ts, n ≤ s
      · exact ⟨_, g2 hx, rfl⟩
      · obtain ⟨ht, s, r, e, h5, hr⟩ : d.ftype = 4 ∧ ∃ s r, dataSectors33 b d.numSectors ts = s :: r ∧ 560 ≤ s ∧ ∃ x ∈ r, x < 560 := by
          rcases h with h | h | h
          · exact absurd (Or.inl h) hx
          · exact absurd (Or.inr h) hx
          · exact h
        refine ⟨_, (g3 s r e (fun x h => Nat.lt_of_not_le fun h' => hx (Or.inr ⟨x, h, h'⟩)) h5 hr).trans (if_pos ht), rfl⟩
  · rintro ⟨e, he, hi⟩
    by_cases hc : ∃ ts, ListChain33 n b (secOfTS d.track d.sector) ts
    · obtain ⟨ts, hc⟩ := hc
      obtain ⟨g1, g2, g3, g4, g5⟩ := h1 ts _ hc rfl
      refine Or.inr ⟨ts, hc, ?_⟩
      generalize dataSectors33 b d.numSectors ts = map at g1 g2 g3 g4 g5
      cases map with
      | nil => exact Or.inl rfl
      | cons s r =>
        refine Or.inr ?_
        by_cases hx : ∃ x ∈ s :: r, n ≤ x
        · exact Or.inl hx
        have hx : ∀ x ∈ s :: r, x < n := fun x h => Nat.lt_of_not_le fun h' => hx ⟨x, h, h'⟩
        refine Or.inr ?_
        by_cases hs : s < 560
        · rw [g4 s r rfl hx hs] at he; cases he
        by_cases hr : ∃ x ∈ r, x < 560
        · have := g3 s r rfl hx (by omega) hr
          by_cases ht : d.ftype = 4
          · exact ⟨ht, s, r, rfl, by omega, hr⟩
          · rw [if_neg ht] at this; rw [this] at he; cases he
        · rw [g5 (by simp) fun x h => ⟨hx x h, by
            rcases List.mem_cons.mp h with rfl | h
            · omega
            · exact Nat.le_of_not_lt fun h' => hr ⟨x, h, h'⟩⟩] at he
          cases he
    · by_cases ho : ListOut33 n b (secOfTS d.track d.sector)
      · rw [h2 ho] at he
        injection he with he
        subst he
        cases hi
      · exact Or.inl ⟨fun ts h => hc ⟨ts, h⟩, ho⟩

theorem fatal33_error {n : Nat} {b : Bytes} {d : DDirent} (hb : b.length = 143360) (hd : d.isSane = true) {e : Err}
    (h : d.getFile n b = .error e) (hi : e.isInvalidFile = false) : e = .nameError ∨ e = .indexError ∨ e = .hang := by
  rcases getFile33_errors (n := n) hb hd with ⟨x, g⟩ | g | g | g | g <;> rw [g] at h <;> cases h
  · cases hi
  · simp
  · simp
  · simp

theorem segments33_few {m : DImg} (h : m.maxSectors ≤ 272) : m.segments = .error .nameError := by
  have hno : ∀ i j, slice33 m.maxSectors m.bytes i j = .ok (slice m.bytes (256 * i) (256 * j + 256)) ∨
      slice33 m.maxSectors m.bytes i j = .error .nameError := by
    intro i j
    unfold slice33
    split
    · exact Or.inl rfl
    · exact Or.inr rfl
  have hlast : slice33 m.maxSectors m.bytes 272 272 = .error .nameError := by
    unfold slice33
    rw [if_neg (by omega)]
  unfold DImg.segments
  rw [hlast]
  rcases hno 0 0 with h | h <;> rw [h]
  simp only
  rcases hno 1 9 with h | h <;> rw [h]
  simp only
  rcases hno 10 11 with h | h <;> rw [h]
  simp only
  rcases hno 12 37 with h | h <;> rw [h]

/-- **C76.** A disk that opens as DOS 3.3 is either shown, or making its segments fails with an exception that nothing in the
program catches; the second happens exactly if the VTOC claims 272 sectors or fewer, or one of the files is `Fatal33`. -/
theorem C76_segments {b : Bytes} {m : DImg} (hm : DImg.open b = .ok m) :
    ((m.maxSectors ≤ 272 ∨ ∃ d ∈ m.files, Fatal33 m.maxSectors b d) →
      m.segments = .error .nameError ∨ m.segments = .error .indexError ∨ m.segments = .error .hang) ∧
    (¬ (m.maxSectors ≤ 272 ∨ ∃ d ∈ m.files, Fatal33 m.maxSectors b d) → ∃ s, m.segments = .ok s) := by
  obtain ⟨hb, rfl, hf, ds, hc, he, hs⟩ := open33_ok hm
  have hsane : ∀ d ∈ m.files, d.isSane = true := fun d hd => by rw [he] at hd; exact hs d (List.mem_filter.mp hd).1
  by_cases hn : m.maxSectors ≤ 272
  · exact ⟨fun _ => Or.inl (segments33_few hn), fun h => absurd (Or.inl hn) h⟩
  obtain ⟨c, hcc⟩ := catChain_of_catLoop _ _ _ _ hc
  have hsl : ∀ i j, j ≤ 272 → slice33 m.maxSectors m.bytes i j = .ok (slice m.bytes (256 * i) (256 * j + 256)) := by
    intro i j hj
    unfold slice33
    rw [if_pos (by omega)]
  have hseg : ∀ r, fileSegs DDirent.filename (fun d => d.getFile m.maxSectors m.bytes) m.bytes m.files = r →
      (∀ e, r = .error e → m.segments = .error e) ∧ (∀ s, r = .ok s → ∃ s', m.segments = .ok s') := by
    intro r hr
    unfold DImg.segments
    rw [hsl 0 0 (by omega), hsl 1 9 (by omega), hsl 10 11 (by omega), hsl 12 37 (by omega), hsl 272 272 (by omega), hcc]
    simp only
    rw [hr]
    exact ⟨fun e h => by rw [h], fun s h => by rw [h]; exact ⟨_, rfl⟩⟩
  constructor
  · rintro (h | ⟨d, hd, hx⟩)
    · omega
    · obtain ⟨e, g1, g2⟩ := (fatal33_iff hb (hsane d hd)).mp hx
      obtain ⟨d', hd', e', k1, k2, k3⟩ := fileSegs_crash (name := DDirent.filename) (b := m.bytes)
        (get := fun d => d.getFile m.maxSectors m.bytes) m.files ⟨d, hd, e, g1, g2⟩
      rw [(hseg _ k3).1 e' rfl]
      rcases fatal33_error hb (hsane d' hd') k1 k2 with rfl | rfl | rfl <;> simp
  · intro h
    obtain ⟨ss, k1, _⟩ := fileSegs_caught (name := DDirent.filename) (b := m.bytes) (get := fun d => d.getFile m.maxSectors m.bytes) m.files
      (fun d hd => by
        cases hg : d.getFile m.maxSectors m.bytes with
        | ok x => exact Or.inl ⟨x, rfl⟩
        | error e =>
          refine Or.inr ⟨e, rfl, ?_⟩
          cases hi : e.isInvalidFile with
          | true => rfl
          | false => exact absurd (Or.inr ⟨d, hd, (fatal33_iff hb (hsane d hd)).mpr ⟨e, hg, hi⟩⟩) h)
    exact (hseg _ k1).2 ss rfl

/-- **C76, detection.** So a disk with such a file cannot be opened at all: `atrcopy` stops with `NameError` or `IndexError`, or does not
stop. -/
theorem C76_detect {L : Libs} {b : Bytes} {m : DImg} (d : OtherFile L b) (hf : b.take 2 ≠ [0xff, 0xff]) (hm : DImg.open b = .ok m) :
    (m.maxSectors ≤ 272 ∨ ∃ d ∈ m.files, Fatal33 m.maxSectors b d) ∧
      (detect L b = .error (.py .nameError) ∨ detect L b = .error (.py .indexError) ∨ detect L b = .error (.py .hang)) ∨
    ¬ (m.maxSectors ≤ 272 ∨ ∃ d ∈ m.files, Fatal33 m.maxSectors b d) ∧ ∃ s t, m.segments = .ok s ∧ detect L b = .ok (.dos33 m s, t) := by
  obtain ⟨h1, h2⟩ := C76_segments hm
  by_cases hx : m.maxSectors ≤ 272 ∨ ∃ d ∈ m.files, Fatal33 m.maxSectors b d
  · refine Or.inl ⟨hx, ?_⟩
    have hl := (open33_ok hm).1
    have hxx : ∀ l, ¬ XexFile b l := by
      rintro l ⟨h1 | ⟨r, h1⟩, _⟩
      · omega
      · exact hf (by rw [h1]; rfl)
    have hp := dos33Parser_eq b
    rw [hm] at hp
    simp only at hp
    have key : ∀ e : Err, sealErr e = e → e ≠ .invalidSegmentParser → m.segments = .error e → detect L b = .error (.py e) := by
      intro e g1 g2 g3
      rw [g3] at hp
      simp only at hp
      rw [g1] at hp
      rw [skip_carts d hxx (not_cart_size hl)]
      have : tryParsers true b (imageParsers L.zip .appleDsk) = .error e := by
        show tryParsers true b [dos33Parser, prodosParser] = _
        rw [tryParsers, hp]
        cases e <;> first | rfl | exact absurd rfl g2
      rw [findByMime, this]
      rfl
    rcases h1 hx with h | h | h
    · exact Or.inl (key _ rfl (by decide) h)
    · exact Or.inr (Or.inl (key _ rfl (by decide) h))
    · exact Or.inr (Or.inr (key _ rfl (by decide) h))
  · obtain ⟨s, hs⟩ := h2 hx
    obtain ⟨t, ht⟩ := C71_dos33 d hf hm hs
    exact Or.inr ⟨hx, s, t, hs, ht⟩

/-- **C76, commands.** And no command on such a disk does anything: not even `delete` of the file in question. -/
theorem C76_commands {L : Libs} {b : Bytes} {m : DImg} (d : OtherFile L b) (hf : b.take 2 ≠ [0xff, 0xff]) (hm : DImg.open b = .ok m)
    (hx : m.maxSectors ≤ 272 ∨ ∃ d ∈ m.files, Fatal33 m.maxSectors b d) (t : Char) (o : Opts) (c : Cmd) :
    c.run (diskDriver L t) o b = (.error .nameError, b) ∨ c.run (diskDriver L t) o b = (.error .indexError, b) ∨
    c.run (diskDriver L t) o b = (.error .hang, b) := by
  have key : ∀ e, detect L b = .error (.py e) → c.run (diskDriver L t) o b = (.error e, b) := by
    intro e h
    have : (diskDriver L t).load b = .error e := by
      show loadDisk L b = _
      unfold loadDisk
      rw [h]
    unfold Cmd.run
    rw [this]
  rcases C76_detect d hf hm with ⟨_, h | h | h⟩ | ⟨h, _⟩
  · exact Or.inl (key _ h)
  · exact Or.inr (Or.inl (key _ h))
  · exact Or.inr (Or.inr (key _ h))
  · exact absurd hx h

/-! ### examples -/

/-- catalog sector with the entry of a locked text file `A` of one sector, the list at track 18, sector 15, and no data: what DOS
makes when a file is opened and closed without anything written to it -/
def emptyFileCat : Bytes :=
  List.replicate 11 0 ++ ([18, 15, 0x80, 0xc1] ++ List.replicate 29 0xa0 ++ [1, 0]) ++ List.replicate 210 0

/-- sectors of a disk with that file -/
def emptyFileSec (s : Nat) : Bytes := if s = 272 then vtocBlank33 else if s = 287 then emptyFileCat else List.replicate 256 0

theorem emptyFileSec_length (s : Nat) : (emptyFileSec s).length = 256 := by
  unfold emptyFileSec
  split
  · exact vtocBlank33_length
  · split
    · decide +kernel
    · exact List.length_replicate

/-- the entry of that file -/
def emptyFileEntry : DDirent := { track := 18, sector := 15, locked := true, filename := [0x41], numSectors := 1 }

/-- a disk with one file that has no data -/
def emptyFileDisk : Bytes := imgOf33 emptyFileSec

theorem emptyFileDisk_sec {s : Nat} (h : s < 560) : sec33 emptyFileDisk s = emptyFileSec s := sec33_flatMap emptyFileSec_length h

theorem emptyFileDisk_length : emptyFileDisk.length = 143360 := imgOf33_length emptyFileSec_length

attribute [local irreducible] emptyFileDisk

theorem emptyFileDisk_open : DImg.open emptyFileDisk =
    .ok { bytes := emptyFileDisk, firstDir := 287, maxSectors := 560, tsPairs := 122, files := [emptyFileEntry], allSane := true } := by
  have h0 : sec33 emptyFileDisk 0 = List.replicate 256 0 := by
    rw [emptyFileDisk_sec (by omega)]; unfold emptyFileSec; rw [if_neg (by omega), if_neg (by omega)]
  have hv : sec33 emptyFileDisk 272 = vtocBlank33 := by rw [emptyFileDisk_sec (by omega)]; unfold emptyFileSec; rw [if_pos rfl]
  have hc : sec33 emptyFileDisk 287 = emptyFileCat := by
    rw [emptyFileDisk_sec (by omega)]; unfold emptyFileSec; rw [if_neg (by omega), if_pos rfl]
  have hb := emptyFileDisk_length
  generalize emptyFileDisk = b at h0 hv hc hb
  rw [open_prefix33 hb h0 hv, getDirectory_ok (ds := [emptyFileEntry])]
  · rfl
  · have h := catLoop_last (maxS := 560) (b := b) (s := 287) (num := 0) 559 (by omega) (by omega) (by rw [hc]; decide +kernel)
      (by rw [hc]; decide +kernel)
    rw [hc] at h
    refine h.trans (congrArg Except.ok ?_)
    decide +kernel

theorem emptyFile_fatal : Fatal33 560 emptyFileDisk emptyFileEntry := by
  have hz : sec33 emptyFileDisk 303 = List.replicate 256 0 := by
    rw [emptyFileDisk_sec (by omega)]; unfold emptyFileSec; rw [if_neg (by omega), if_neg (by omega)]
  have hp : pairAt33 emptyFileDisk 303 1 = 0 := by
    rw [← linkOf_list]
    unfold listSec33
    rw [hz]
    decide +kernel
  refine Or.inr ⟨[303], ?_, Or.inl ?_⟩
  · show ListChain33 560 emptyFileDisk 303 [303]
    refine .next (by omega) (by omega) ?_
    rw [hp]
    exact .done
  · unfold dataSectors33
    rfl

/-- the disk opens, its catalog lists the file, and every command on it ends with `NameError` (or one of the other two: the general
theorem does not say which) -/
example (t : Char) (o : Opts) (c : Cmd) : (c.run (diskDriver magicLibs t) o emptyFileDisk).2 = emptyFileDisk ∧
    ∃ e, (c.run (diskDriver magicLibs t) o emptyFileDisk).1 = .error e := by
  have hd : OtherFile magicLibs emptyFileDisk := by
    have h0 : sec33 emptyFileDisk 0 = sec33 blank33 0 := by
      rw [blank33_boot, emptyFileDisk_sec (by omega)]; unfold emptyFileSec; rw [if_neg (by omega), if_neg (by omega)]
    exact ((dos33File_blank magicLibs.zip).same (by rw [emptyFileDisk_length, blank33_template.size]) h0).other emptyFileDisk_length rfl
  have hf : emptyFileDisk.take 2 ≠ [0xff, 0xff] := by
    rw [← take_sec33, emptyFileDisk_sec (by omega)]
    decide +kernel
  rcases C76_commands hd hf emptyFileDisk_open (Or.inr ⟨_, List.mem_singleton.mpr rfl, emptyFile_fatal⟩) t o c with h | h | h <;>
    rw [h] <;> exact ⟨rfl, _, rfl⟩

/-- reading that file -/
example : emptyFileEntry.getFile 560 emptyFileDisk = .error .nameError := by
  have hz : sec33 emptyFileDisk 303 = List.replicate 256 0 := by
    rw [emptyFileDisk_sec (by omega)]; unfold emptyFileSec; rw [if_neg (by omega), if_neg (by omega)]
  have hp : pairAt33 emptyFileDisk 303 1 = 0 := by
    rw [← linkOf_list]
    unfold listSec33
    rw [hz]
    decide +kernel
  refine ((C75_outcome emptyFileDisk_length rfl).1 [303] [] ?_ rfl).2.1 (Or.inl rfl)
  show ListChain33 560 emptyFileDisk 303 [303]
  refine .next (by omega) (by omega) ?_
  rw [hp]
  exact .done

/-- the same entry with three sectors: both pairs of the list are 0, so the file is the boot sector, twice -/
example : DDirent.getFile 560 emptyFileDisk { emptyFileEntry with numSectors := 3 } = .ok (sec33 emptyFileDisk 0 ++ sec33 emptyFileDisk 0) := by
  have hz : sec33 emptyFileDisk 303 = List.replicate 256 0 := by
    rw [emptyFileDisk_sec (by omega)]; unfold emptyFileSec; rw [if_neg (by omega), if_neg (by omega)]
  have hp : pairAt33 emptyFileDisk 303 1 = 0 := by
    rw [← linkOf_list]
    unfold listSec33
    rw [hz]
    decide +kernel
  have hq : ∀ i, i < 255 → pairAt33 emptyFileDisk 303 i = 0 := by
    intro i hi
    have h1 : ∀ j, j < 256 → secByte33 emptyFileDisk 303 j = 0 := by
      intro j hj
      unfold secByte33
      have := listSec33_getD emptyFileDisk 303 hj
      rw [← this]
      unfold listSec33
      rw [hz]
      have : ∀ j < 256, (WSector.ofData 256 (List.replicate 256 0)).data.getD j 0 = 0 := by decide +kernel
      rw [this j hj]
      rfl
    unfold pairAt33
    rw [h1 i (by omega), h1 (i + 1) (by omega)]
  refine (((C75_outcome (n := 560) (d := { emptyFileEntry with numSectors := 3 }) emptyFileDisk_length rfl).1 [303] [0, 0] ?_ ?_).1
    ⟨by decide, by decide⟩).trans ?_
  · show ListChain33 560 emptyFileDisk 303 [303]
    refine .next (by omega) (by omega) ?_
    rw [hp]
    exact .done
  · unfold dataSectors33
    rw [List.flatMap_singleton]
    have : listPairs33 emptyFileDisk 303 = List.replicate 122 0 := by
      unfold listPairs33
      rw [List.eq_replicate_iff]
      refine ⟨by simp, fun x hx => ?_⟩
      obtain ⟨i, hi, rfl⟩ := List.mem_map.mp hx
      rw [List.mem_range] at hi
      exact hq _ (by omega)
    rw [this]
    rfl
  · rw [List.flatMap_cons, List.flatMap_singleton]
    rfl

end Atr
