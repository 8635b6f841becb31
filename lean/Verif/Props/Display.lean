import Verif.Lemmas.Display
import Verif.Props.SpartaDir
import Verif.Props.Dos33Open
import Verif.Props.AtariOpen
import Verif.Props.Dos33Crash
import Verif.Props.AtariLimits
/-!
# C87: what `list` and `crc` print
-/
namespace Atr

/-! ### names in columns -/

theorem char_blank : ∀ n, n < 256 → Char.ofNat n = ' ' → n = 32 := by decide +kernel

theorem noBlanks_chars (l : Bytes) : noBlanks (chars (rstripWs l)) = chars (rstripWs l) := by
  unfold noBlanks rstripWs chars
  rw [List.map_reverse, List.reverse_reverse]
  congr 1
  have := List.head?_dropWhile_not isWs l.reverse
  cases hd : l.reverse.dropWhile isWs with
  | nil => rfl
  | cons x r =>
    rw [hd] at this
    rw [List.map_cons, List.dropWhile_cons, if_neg]
    intro h
    have h32 : x.toNat = 32 := char_blank x.toNat (UInt8.toNat_lt x) (by simpa using h)
    have hx : x = 32 := UInt8.toNat_inj.mp (by rw [h32]; rfl)
    rw [hx] at this
    have this : isWs 32 = false := this
    exact absurd this (by decide)

theorem length_rstripNul (l : Bytes) : (rstripNul l).length ≤ l.length := by
  unfold rstripNul
  rw [List.length_reverse]
  have := (List.dropWhile_sublist (fun x : UInt8 => x == 0) (l := l.reverse)).length_le
  rw [List.length_reverse] at this
  exact this

theorem trimmed_eq (l : Bytes) : trimmed l = rstripWs (rstripNul l) := rfl

theorem length_trimmed (l : Bytes) : (trimmed l).length ≤ l.length :=
  Nat.le_trans (length_rstripWs _) (length_rstripNul _)

/-! ### Atari DOS -/

/-- the line of an entry of an Atari directory can be read back -/
theorem atari_entry_line (h : AHeader) {dir : Bytes} {i : Nat} (he : (atariEntry dir i).length = 16) : ∃ d, ADirent.parse h i (atariEntry dir i) = .ok d ∧
    d.inUse = statusBit (atariEntry dir i) 6 ∧ d.flag = (atariEntry dir i).getD 0 0 ∧
    ∀ t, NoDigit t → readAtari (d.line ++ t) = some (atariLineOf dir i, t) := by
  unfold atariLineOf
  generalize atariEntry dir i = e at he
  match e, he with
  | [f, c0, c1, s0, s1, n0, n1, n2, n3, n4, n5, n6, n7, e0, e1, e2], _ =>
    refine ⟨_, rfl, testBit_status f 6, rfl, fun t ht => ?_⟩
    rw [readAtari_line _ (s := le16 s0 s1) (by rfl) ?_ ?_ ht]
    · simp only [testBit_status]
      have k1 := noBlanks_chars (rstripNul [n0, n1, n2, n3, n4, n5, n6, n7])
      have k2 := noBlanks_chars (rstripNul [e0, e1, e2])
      unfold latin1
      unfold chars at k1 k2
      rw [k1, k2]
      unfold statusBit wordAt le16 chars
      simp only [List.getD_cons_zero, List.getD_cons_succ]
      congr 1
    · exact length_trimmed [n0, n1, n2, n3, n4, n5, n6, n7]
    · exact length_trimmed [e0, e1, e2]

theorem scan_lines (h : AHeader) (dir : Bytes) : ∀ j k ds, 16 * k ≤ dir.length → dir.length / 16 = k + j →
    scanDir h k (chunks 16 (dir.drop (16 * k))) = .ok ds →
    (ds.filter (·.inUse)).map (fun d => readAtari d.line) =
      (((List.range' k j).takeWhile fun i => (atariEntry dir i).getD 0 0 ≠ 0).filter fun i => statusBit (atariEntry dir i) 6).map fun i =>
        some (atariLineOf dir i, []) := by
  intro j
  induction j with
  | zero =>
    intro k ds hk hj hs
    by_cases hn : dir.drop (16 * k) = []
    · rw [hn, chunks_nil] at hs
      cases hs; rfl
    · rw [chunks_cons 16 (by omega) _ hn, scanDir, parse_short k (by rw [List.length_take, List.length_drop]; omega)] at hs
      cases hs
  | succ j ih =>
    intro k ds hk hj hs
    have hlen : 16 * (k + 1) ≤ dir.length := by omega
    have hn : dir.drop (16 * k) ≠ [] := fun hh => by
      have := congrArg List.length hh
      rw [List.length_drop, List.length_nil] at this; omega
    have he : (dir.drop (16 * k)).take 16 = atariEntry dir k := by
      unfold atariEntry slice
      rw [List.drop_take]; congr 1; omega
    have hel : (atariEntry dir k).length = 16 := by unfold atariEntry; rw [length_slice]; omega
    obtain ⟨d, p1, p2, p3, p4⟩ := atari_entry_line h hel
    rw [chunks_cons 16 (by omega) _ hn, he, scanDir, p1, List.drop_drop] at hs
    simp only at hs
    rw [List.range'_succ, List.takeWhile_cons]
    by_cases hf : (atariEntry dir k).getD 0 0 = 0
    · have hu : d.inUse = false := by rw [p2]; unfold statusBit; rw [hf]; rfl
      rw [hu, p3, hf, if_pos (by rfl)] at hs
      cases hs
      rw [if_neg (by simpa using hf)]
      rfl
    · rw [if_neg (by rw [p3]; simp only [Bool.and_eq_true, Bool.not_eq_true', beq_iff_eq, not_and]; exact fun _ => hf)] at hs
      rw [if_pos (by simpa using hf)]
      rw [show 16 * k + 16 = 16 * (k + 1) by omega] at hs
      cases hr : scanDir h (k + 1) (chunks 16 (dir.drop (16 * (k + 1)))) with
      | error e => rw [hr] at hs; cases hs
      | ok rest =>
        rw [hr] at hs
        cases hs
        have := ih (k + 1) rest hlen (by omega) hr
        rw [List.filter_cons, List.filter_cons, ← p2]
        by_cases hu : d.inUse = true
        · rw [if_pos hu, if_pos hu, List.map_cons, List.map_cons, this]
          congr 1
          have := p4 [] noDigit_nil
          rw [List.append_nil] at this
          exact this
        · rw [if_neg hu, if_neg hu, this]

/-- the files of a disk that opens are the entries of its directory that are in use -/
theorem atari_files_scan {b : Bytes} {m : AImg} (hm : AImg.open b = .ok m) :
    ∃ ds, scanDir m.hdr 0 (chunks 16 (dirBytes m.hdr b)) = .ok ds ∧ m.files = ds.filter (·.inUse) := by
  unfold AImg.open at hm
  cases ho : openHeader b with
  | error e => rw [ho] at hm; cases hm
  | ok h =>
    rw [ho] at hm
    have g := openHeader_geom ho
    simp only at hm
    unfold AImg.getMetadata at hm
    cases hv : AImg.getVtoc { hdr := h, bytes := b } with
    | mk r m1 =>
      obtain ⟨k1, k2, k3⟩ := getVtoc_keeps hv
      simp only at k1 k2
      rw [hv] at hm
      cases r with
      | error e => cases hm
      | ok u =>
        simp only at hm
        unfold AImg.getDirectory at hm
        by_cases hmax : 368 ≤ h.maxSectors
        · rw [k1, k2, getSectors_range g hmax] at hm
          simp only at hm
          cases hs : scanDir h 0 (chunks 16 (dirBytes h b)) with
          | error e => rw [hs] at hm; cases hm
          | ok ds =>
            rw [hs] at hm
            simp only at hm
            split at hm
            · cases hm
            · rename_i heq
              split at heq
              · cases heq
                cases hm
                exact ⟨ds, hs, rfl⟩
              · cases heq
        · obtain ⟨e, he⟩ := getSectors_361 g hmax
          rw [k1, k2, he] at hm
          cases hm

/-- **C87, Atari DOS.** The lines that `list` prints for a disk are those of the files of its directory, in order: the number of the entry, the flags, the
first sector, name, extension and number of sectors can be read back from every line. -/
theorem C87_atari {b : Bytes} {m : AImg} (hm : AImg.open b = .ok m) :
    m.files.map (fun d => readAtari d.line) = (atariFiles (dirBytes m.hdr b)).map fun i => some (atariLineOf (dirBytes m.hdr b) i, []) := by
  obtain ⟨ds, hs, hf⟩ := atari_files_scan hm
  generalize m.hdr = h at hs ⊢
  rw [hf]
  have := scan_lines h (dirBytes h b) ((dirBytes h b).length / 16) 0 ds (by omega) (by omega) (by rw [Nat.mul_zero, List.drop_zero]; exact hs)
  rw [this, ← List.range_eq_range']
  rfl

/-! ### DOS 3.3 -/

theorem typeToText33_eq (t : Nat) : typeToText33 t = kindOf33 t := by
  unfold typeToText33 kindOf33
  split <;> try rfl
  rename_i h0 h1 h2 h3 h4 h5 h6 h7
  simp only [List.lookup, beq_eq_false_iff_ne.mpr h0, beq_eq_false_iff_ne.mpr h1, beq_eq_false_iff_ne.mpr h2, beq_eq_false_iff_ne.mpr h3,
    beq_eq_false_iff_ne.mpr h4, beq_eq_false_iff_ne.mpr h5, beq_eq_false_iff_ne.mpr h6, beq_eq_false_iff_ne.mpr h7]
  rfl

theorem dos33_entry_line (n : Nat) (b : Bytes) (k p : Nat) (hd : byteOf b p ≠ 255) {t : List Char} (ht : NoDigit t) :
    readDos33 ((entryAt33 n b k p).line ++ t) = some (dos33LineOf b (p, k), t) := by
  have hdel : (entryAt33 n b k p).deleted = false := by rw [entryAt33_deleted]; exact decide_eq_false hd
  have hi := entryAt33_info (n := n) (k := k) hd
  have e1 : (entryAt33 n b k p).filename = (fileInfo33 b p).name := congrArg FileInfo33.name hi
  have e2 : (entryAt33 n b k p).ftype = (fileInfo33 b p).ftype := congrArg FileInfo33.ftype hi
  have e3 : (entryAt33 n b k p).locked = (fileInfo33 b p).locked := congrArg FileInfo33.locked hi
  have e4 : (entryAt33 n b k p).numSectors = (fileInfo33 b p).sectors := congrArg FileInfo33.sectors hi
  have h0 : ∀ j, j < 35 → ((slice b p (p + 35)).getD j 0).toNat = byteOf b (p + j) := fun j hj => by
    rw [slice_getD (by omega)]; rfl
  have e5 : (entryAt33 n b k p).track.toNat = byteOf b p := by
    have h00 : ((slice b p (p + 35)).getD 0 0).toNat = byteOf b p := h0 0 (by omega)
    show (if (slice b p (p + 35)).getD 0 0 == 0xff then (slice b p (p + 35)).getD 0x20 0 else (slice b p (p + 35)).getD 0 0).toNat = _
    rw [if_neg (by rw [toNat_beq_ff, h00, decide_eq_false hd]; decide), h00]
  have e6 : (entryAt33 n b k p).sector.toNat = byteOf b (p + 1) := h0 1 (by omega)
  have hl : (entryAt33 n b k p).filename.length ≤ 30 := by
    rw [e1]
    have h1 := List.length_filter_le (fun c : UInt8 => decide (c < 0x80)) (rstripWs ((slice b (p + 3) (p + 32)).map (· - 0x80)))
    have h2 := length_rstripWs ((slice b (p + 3) (p + 32)).map (· - 0x80))
    rw [List.length_map, length_slice] at h2
    unfold fileInfo33
    simp only
    omega
  rw [readDos33_line _ hdel hl ht, e2, e3, e4, e5, e6, e1, typeToText33_eq]
  rfl

/-- **C87, DOS 3.3.** The lines that `list` prints for a disk are those of the entries of its catalog that are no deleted files, in order: lock, type,
number of sectors, name, track and sector can be read back from every line.  (`cs` are the sectors of the catalog.) -/
theorem C87_dos33 {b : Bytes} {m : DImg} (hm : DImg.open b = .ok m) : ∃ cs, CatChain33 (sectors33 b) b (pairAt33 b 272 1) cs ∧
    m.files.map (fun d => readDos33 d.line) = ((cs.flatMap (seenEntries33 b)).zipIdx.filter fun x => byteOf b x.1 ≠ 255).map fun x =>
      some (dos33LineOf b x, []) := by
  obtain ⟨cs, v, h1, h2, h3, -⟩ := C77_opens b m hm
  refine ⟨cs, v.chain, ?_⟩
  obtain ⟨hb, -, -, ds, hc, hf, -⟩ := open33_ok hm
  rw [h3, h2, catLoop_of_chain v.size 0 v.chain] at hc
  have hc := Except.ok.inj hc
  rw [hf, ← hc]
  clear hc hf hm
  unfold catList33
  have key : ∀ (l : List Nat) k, (∀ p ∈ l, GoodEntry33 (sectors33 b) b p) →
      (((l.zipIdx k).map fun x => entryAt33 (sectors33 b) b x.2 x.1).filter fun d => d.isSane && !d.deleted).map (fun d => readDos33 d.line) =
      ((l.zipIdx k).filter fun x => byteOf b x.1 ≠ 255).map fun x => some (dos33LineOf b x, []) := by
    intro l
    induction l with
    | nil => intro k _; rfl
    | cons p l ih =>
      intro k hg
      have hs := (entryAt33_sane (sectors33 b) b k p).mpr (hg p List.mem_cons_self)
      have ih := ih (k + 1) fun p hp => hg p (List.mem_cons_of_mem _ hp)
      rw [List.zipIdx_cons, List.map_cons, List.filter_cons, List.filter_cons, hs, entryAt33_deleted]
      by_cases hd : byteOf b p = 255
      · rw [decide_eq_true hd, if_neg (by decide), if_neg (by simpa using hd), ih]
      · rw [decide_eq_false hd, if_pos (by decide), if_pos (by simpa using hd), List.map_cons, List.map_cons, ih]
        congr 1
        have := dos33_entry_line (sectors33 b) b k p hd noDigit_nil
        rw [List.append_nil] at this
        exact this
  exact key _ 0 v.good

/-! ### SpartaDOS -/

theorem sparta_entry_line {d : SDirent} {e : Bytes} (he : e.length = 23) (hd : d.info = sInfo e) {t : List Char} (ht : NoDigit t) :
    readSparta (d.line ++ t) = some (spartaLineOf (d.info, d.fileNum), t) := by
  have e1 : d.basename = trimmed (slice e 6 14) := congrArg SInfo.name hd
  have e2 : d.ext = if statusBit e 5 then [] else trimmed (slice e 14 17) := congrArg SInfo.ext hd
  have e3 : d.stamp = slice e 17 23 := congrArg SInfo.stamp hd
  have l1 : d.basename.length ≤ 8 := by
    have := length_trimmed (slice e 6 14)
    rw [length_slice] at this
    rw [e1]; omega
  have l2 : d.ext.length ≤ 3 := by
    have := length_trimmed (slice e 14 17)
    rw [length_slice] at this
    rw [e2]
    split
    · exact Nat.zero_le _
    · omega
  have b1 : noBlanks (latin1 d.basename) = chars d.basename := by rw [e1]; exact noBlanks_chars _
  have b2 : noBlanks (latin1 d.ext) = chars d.ext := by
    rw [e2]
    split
    · rfl
    · exact noBlanks_chars _
  match e, he with
  | [f, s0, s1, l0, l1', l2', n0, n1, n2, n3, n4, n5, n6, n7, x0, x1, x2, y0, y1, y2, y3, y4, y5], _ =>
    have e3 : d.stamp = [y0, y1, y2, y3, y4, y5] := e3
    rw [readSparta_line d e3 l1 l2 ht, b1, b2]
    unfold spartaLineOf SDirent.info
    simp only [e3, List.map_cons, List.map_nil]

/-- every entry of a disk that opens comes from a complete record -/
theorem sparta_entries_records {h : AHeader} {s : Bytes} {n : Nat} (g : h.Geom n) : ∀ k num ds, spartaEntries h s num k = .ok ds →
    ds.map (·.fileNum) = List.range' (num + 1) ds.length ∧ ∀ d ∈ ds, ∃ e : Bytes, e.length = 23 ∧ d.info = sInfo e := by
  intro k
  induction k with
  | zero => intro num ds hd; cases hd; exact ⟨rfl, fun _ h => absurd h (by simp)⟩
  | succ k ih =>
    intro num ds hd
    rw [spartaEntries] at hd
    split at hd
    · cases hd
    rename_i d hp
    split at hd
    · cases hd
    rename_i ds' hr
    cases hd
    have hlen : (slice s (23 * (num + 1)) (23 * (num + 1) + 23)).length = 23 := by
      unfold SDirent.parse at hp
      split at hp
      · cases hp
      · rename_i he; rw [he]; rfl
      · cases hp
    obtain ⟨d', e1, e2, e3, -⟩ := C78_record g (num + 1) hlen
    rw [e1] at hp
    cases hp
    obtain ⟨i1, i2⟩ := ih _ _ hr
    refine ⟨?_, fun x hx => ?_⟩
    · rw [List.map_cons, i1, List.length_cons, List.range'_succ, e2]
    · rcases List.mem_cons.mp hx with rfl | hx
      · exact ⟨_, hlen, e3⟩
      · exact i2 x hx

theorem sparta_open_records {b : Bytes} {m : SImg} (hm : SImg.open b = .ok m) :
    m.files.map (·.fileNum) = List.range' 1 m.files.length ∧ ∀ d ∈ m.files, ∃ e : Bytes, e.length = 23 ∧ d.info = sInfo e := by
  unfold SImg.open at hm
  split at hm
  · cases hm
  rename_i h ho
  have g := openHeader_geom ho
  split at hm
  · cases hm
  split at hm
  · cases hm
  rename_i ds hd
  cases hm
  unfold spartaDirectory at hd
  split at hd
  · cases hd
  · cases hd
  · split at hd
    · cases hd; exact ⟨rfl, fun _ h => absurd h (by simp)⟩
    · split at hd
      · cases hd
      · split at hd
        · cases hd
        · simp only at hd
          split at hd
          · cases hd
          · exact sparta_entries_records g _ _ _ hd

/-- **C87, SpartaDOS.** The lines that `list` prints for a disk are those of the records of its root directory (see C78), in order: flags, first map sector,
name, extension, length, date and time can be read back from every line. -/
theorem C87_sparta {b : Bytes} {m : SImg} (hm : SImg.open b = .ok m) :
    m.files.map (fun d => readSparta d.line) = ((m.files.map SDirent.info).zipIdx 1).map fun x => some (spartaLineOf x, []) := by
  obtain ⟨h1, h2⟩ := sparta_open_records hm
  have : ∀ (ds : List SDirent) k, ds.map (·.fileNum) = List.range' k ds.length → (∀ d ∈ ds, ∃ e : Bytes, e.length = 23 ∧ d.info = sInfo e) →
      ds.map (fun d => readSparta d.line) = ((ds.map SDirent.info).zipIdx k).map fun x => some (spartaLineOf x, []) := by
    intro ds
    induction ds with
    | nil => intro k _ _; rfl
    | cons d ds ih =>
      intro k h1 h2
      rw [List.map_cons, List.length_cons, List.range'_succ] at h1
      injection h1 with h1 h1'
      obtain ⟨e, he, hi⟩ := h2 d List.mem_cons_self
      have hr := sparta_entry_line he hi noDigit_nil
      rw [List.append_nil, h1] at hr
      rw [List.map_cons, List.map_cons, List.zipIdx_cons, List.map_cons, ih (k + 1) h1' fun d hd => h2 d (List.mem_cons_of_mem _ hd), hr]
  exact this _ 1 h1 h2

/-- **C87, KBoot.** The only line of a KBoot disk. -/
theorem C87_kboot (m : HImg) : readAtari (kbootDirent m).line = some (⟨0, false, false, false, true, false, false, 4, "KBOOT".toList, "XEX".toList,
    m.exe.length / 128 + 1⟩, []) := by
  have := readAtari_line (kbootDirent m) (s := 4) (by rfl) (by show 5 ≤ 8; omega) (by show 3 ≤ 3; omega) noDigit_nil
  rw [List.append_nil] at this
  rw [this]
  rfl

/-! ### which entries are printed -/

/-- the entries asked for: all if no name is given, otherwise those with a given name -/
def asked (names : List Bytes) (rows : List Row) : List Row := rows.filter fun r => names = [] ∨ r.name ∈ names

theorem asked_cond (names : List Bytes) (n : Bytes) : (names.isEmpty || names.contains n) = decide (names = [] ∨ n ∈ names) := by
  rw [Bool.eq_iff_iff]
  simp

/-- **C87, `list`.** `list` prints the lines of the entries asked for, in the order of the directory, and does not fail. -/
theorem C87_list (names : List Bytes) (rows : List Row) : printList false false names rows = ((asked names rows).map Row.line, .ok ()) := by
  unfold asked
  induction rows with
  | nil => rfl
  | cons r rs ih =>
    rw [printList, asked_cond, List.filter_cons]
    by_cases h : names = [] ∨ r.name ∈ names
    · rw [if_pos (decide_eq_true h), if_pos (decide_eq_true h), ih]; rfl
    · rw [if_neg (by simpa using h), if_neg (by simpa using h), ih]

/-- the line of `list -c` for an entry with contents `d` -/
theorem printList_sums_cons {names : List Bytes} {r : Row} (rs : List Row) (h : names = [] ∨ r.name ∈ names) :
    printList true false names (r :: rs) = match r.data with
      | .error e => ([], .error e)
      | .ok d => ((r.line ++ ("  ".toList ++ pctHex (crc32 d))) :: (printList true false names rs).1, (printList true false names rs).2) := by
  rw [printList, asked_cond, if_pos (decide_eq_true h), if_pos rfl]
  cases r.data with
  | error e => rfl
  | ok d => simp only [Except.map, List.append_assoc]; rfl

/-- **C87, `list -c` and `crc`.** With checksums the same lines are printed, each followed by two blanks and the checksum of the contents; `crc` prints
name and checksum.  Printing ends with the error of the first file asked for that cannot be read; the lines before it are printed. -/
theorem C87_sums (names : List Bytes) (rows A : List Row) (c : Row → Bytes) (hA : ∀ r ∈ A, r.data = .ok (c r)) :
    (asked names rows = A →
      printList true false names rows = (A.map fun r => r.line ++ ("  ".toList ++ pctHex (crc32 (c r))), .ok ()) ∧
      printCrc names rows = (A.map fun r => chars r.name ++ ": ".toList ++ pctHex (crc32 (c r)), .ok ())) ∧
    (∀ r B e, asked names rows = A ++ r :: B → r.data = .error e →
      printList true false names rows = (A.map fun r => r.line ++ ("  ".toList ++ pctHex (crc32 (c r))), .error e) ∧
      printCrc names rows = (A.map fun r => chars r.name ++ ": ".toList ++ pctHex (crc32 (c r)), .error e)) := by
  unfold asked
  induction rows generalizing A with
  | nil =>
    constructor
    · rintro h
      rw [← show [] = A from h]; exact ⟨rfl, rfl⟩
    · intro r B e h _
      simp at h
  | cons r rs ih =>
    rw [List.filter_cons]
    by_cases h : names = [] ∨ r.name ∈ names
    · have hc : printCrc names (r :: rs) = match r.data with
          | .error e => ([], .error e)
          | .ok d => ((chars r.name ++ ": ".toList ++ pctHex (crc32 d)) :: (printCrc names rs).1, (printCrc names rs).2) := by
        rw [printCrc, asked_cond, if_pos (decide_eq_true h)]
        cases r.data <;> rfl
      rw [if_pos (decide_eq_true h), printList_sums_cons rs h, hc]
      constructor
      · intro hh
        cases A with
        | nil => cases hh
        | cons a A =>
          injection hh with h1 h2
          subst h1
          obtain ⟨i1, -⟩ := ih A fun r hr => hA r (List.mem_cons_of_mem _ hr)
          obtain ⟨i1, i2⟩ := i1 h2
          rw [hA r List.mem_cons_self, i1, i2]
          exact ⟨rfl, rfl⟩
      · intro r' B e hh he
        cases A with
        | nil =>
          injection hh with h1 h2
          subst h1
          rw [he]
          exact ⟨rfl, rfl⟩
        | cons a A =>
          injection hh with h1 h2
          subst h1
          obtain ⟨-, i1⟩ := ih A fun r hr => hA r (List.mem_cons_of_mem _ hr)
          obtain ⟨i1, i2⟩ := i1 r' B e h2 he
          rw [hA r List.mem_cons_self, i1, i2]
          exact ⟨rfl, rfl⟩
    · have hl : printList true false names (r :: rs) = printList true false names rs := by
        rw [printList, asked_cond, if_neg (by simpa using h)]
      have hc : printCrc names (r :: rs) = printCrc names rs := by
        rw [printCrc, asked_cond, if_neg (by simpa using h)]
      rw [if_neg (by simpa using h), hl, hc]
      exact ih A hA

/-- the checksums can be read back: what follows a line of `list`, and a whole line of `crc` -/
theorem C87_sum_read (n : List Char) (d : Bytes) : readSum ("  ".toList ++ pctHex (crc32 d)) = some (crc32 d) ∧
    readCrc (n ++ ": ".toList ++ pctHex (crc32 d)) = some (n, crc32 d) :=
  ⟨readSum_crc d, readCrc_line n d⟩

/-! ### the runs of the program -/

theorem kbootName_eq : kbootName = [0x4b, 0x42, 0x4f, 0x4f, 0x54, 0x2e, 0x58, 0x45, 0x58] := by decide +kernel

theorem rows_listing (i : Image) : i.rows.map (fun r => (r.name, r.data)) = i.listing := by
  cases i <;> try rfl
  · show [((_ : Bytes), (_ : Except Err Bytes))] = [_]
    rw [kbootName_eq]; rfl
  · show List.map _ (List.map _ _) = _
    rw [List.map_map]; rfl
  · show List.map _ (List.map _ _) = List.map _ _
    rw [List.map_map]; rfl
  · show List.map _ (List.map _ _) = List.map _ (List.map _ _)
    rw [List.map_map, List.map_map]; rfl

theorem rows_listed (i : Image) (sums more : Bool) :
    i.rows.map (fun r => (r.name, listReads sums more r.data (r.extra.map fun _ => ()))) = i.listed sums more := by
  have hm : i.rows.map (fun r => r.extra.map fun _ => ()) = i.metaReads := by
    cases i with
    | dos33 m s =>
      show List.map _ (List.map _ _) = List.map _ _
      rw [List.map_map]
      refine List.map_congr_left fun d _ => ?_
      show (DDirent.extra _ _ _).map _ = _
      unfold DDirent.extra
      cases d.tsMap m.maxSectors m.bytes <;> rfl
    | atari m s => show List.map _ (List.map _ _) = List.map _ (List.map _ _); rw [List.map_map, List.map_map]; rfl
    | sparta m s => show List.map _ (List.map _ _) = List.map _ (List.map _ _); rw [List.map_map, List.map_map]; rfl
    | _ => rfl
  unfold Image.listed
  rw [← hm, ← rows_listing, List.zip_map', List.map_map]
  rfl

theorem crcLoop_rows (names : List Bytes) (rows : List Row) (sums more : Bool) :
    (printList sums more names rows).2 = crcLoop names (rows.map fun r => (r.name, listReads sums more r.data (r.extra.map fun _ => ()))) ∧
    (printCrc names rows).2 = crcLoop names (rows.map fun r => (r.name, r.data)) := by
  induction rows with
  | nil => exact ⟨rfl, rfl⟩
  | cons r rs ih =>
    rw [List.map_cons, List.map_cons, printList, printCrc, crcLoop, crcLoop]
    by_cases h : (names.isEmpty || names.contains r.name) = true
    · rw [if_pos h, if_pos h, if_pos h, if_pos h]
      constructor
      · rw [← ih.1]
        unfold listReads
        cases sums <;> cases more <;> cases r.data <;> cases r.extra <;> rfl
      · cases hd : r.data with
        | error e => rfl
        | ok d => exact ih.2
    · rw [if_neg h, if_neg h, if_neg h, if_neg h]; exact ih

/-- **C87, the commands.** A run of `list` or `crc` on an image ends the way its printing ends, and changes no file. -/
theorem C87_command (W : World) (dry : Bool) (name : Bytes) (i : Image) (h : Host) (sums more : Bool) (names : List Bytes) :
    (Command.list sums more names).onImage W dry name i h = ((printList sums more names i.rows).2.mapError CErr.py, h) ∧
    (Command.crc names).onImage W dry name i h = ((printCrc names i.rows).2.mapError CErr.py, h) := by
  obtain ⟨h1, h2⟩ := crcLoop_rows names i.rows sums more
  rw [rows_listed] at h1
  rw [rows_listing] at h2
  constructor
  · show shown h (crcLoop names (i.listed sums more)) = _
    rw [h1]
    cases crcLoop names (i.listed sums more) <;> rfl
  · show shown h (crcLoop names i.listing) = _
    rw [h2]
    cases crcLoop names i.listing <;> rfl

/-! ### lines on the screen -/

theorem linesOf_go (t : List Char) (h : '\n' ∉ t) (acc r : List Char) : linesOf.go acc (t ++ '\n' :: r) = (acc.reverse ++ t) :: linesOf.go [] r := by
  induction t generalizing acc with
  | nil =>
    rw [List.nil_append, linesOf.go, if_pos rfl, List.append_nil]
  | cons c t ih =>
    rw [List.cons_append, linesOf.go, if_neg (fun hc => h (by rw [hc]; exact List.mem_cons_self)), ih (fun hc => h (List.mem_cons_of_mem _ hc))]
    rw [List.reverse_cons, List.append_assoc]
    rfl

/-- **C87, one line each.** If no newline is in the texts that are printed, every text is one line. -/
theorem C87_lines (l : List Text) (h : ∀ t ∈ l, '\n' ∉ t) : linesOf (stdout l) = l := by
  induction l with
  | nil => rfl
  | cons t l ih =>
    show linesOf.go [] ((t ++ ['\n']) ++ stdout l) = _
    rw [List.append_assoc, List.singleton_append, linesOf_go t (h t List.mem_cons_self)]
    show _ :: linesOf (stdout l) = _
    rw [ih fun t ht => h t (List.mem_cons_of_mem _ ht)]
    rfl

theorem mem_rstripNul {l : Bytes} {x : UInt8} (h : x ∈ rstripNul l) : x ∈ l := by
  unfold rstripNul at h
  rw [List.mem_reverse] at h
  exact List.mem_reverse.mp ((List.dropWhile_sublist _).mem h)

theorem mem_slice_of {l : Bytes} {x : UInt8} {i j i' j' : Nat} (h : x ∈ slice l i j) (hi : i' ≤ i) (hj : j ≤ j') : x ∈ slice l i' j' := by
  unfold slice at h ⊢
  rw [show i = i' + (i - i') by omega, ← List.drop_drop] at h
  have h := List.mem_of_mem_drop h
  have : (l.take j).drop i' <+: (l.take j').drop i' := by
    rw [List.drop_take, List.drop_take]
    exact List.take_prefix_take_left (by omega)
  exact this.subset h

theorem scan_parsed (h : AHeader) : ∀ cs k ds, scanDir h k cs = .ok ds → ∀ d ∈ ds, ∃ e k, e.length = 16 ∧ ADirent.parse h k e = .ok d := by
  intro cs
  induction cs with
  | nil => intro k ds hs d hd; cases hs; cases hd
  | cons c cs ih =>
    intro k ds hs d hd
    rw [scanDir] at hs
    cases hp : ADirent.parse h k c with
    | error e => rw [hp] at hs; cases hs
    | ok x =>
      rw [hp] at hs
      simp only at hs
      split at hs
      · cases hs; cases hd
      · cases hr : scanDir h (k + 1) cs with
        | error e => rw [hr] at hs; cases hs
        | ok rest =>
          rw [hr] at hs
          cases hs
          rcases List.mem_cons.mp hd with rfl | hd
          · refine ⟨c, k, ?_, hp⟩
            unfold ADirent.parse at hp
            split at hp
            · rfl
            · cases hp
          · exact ih _ _ hr d hd

/-- every file of a disk that opens comes from an entry of its directory -/
theorem atari_files_parsed {b : Bytes} {m : AImg} (hm : AImg.open b = .ok m) : ∀ d ∈ m.files, ∃ e k, e.length = 16 ∧ ADirent.parse m.hdr k e = .ok d := by
  obtain ⟨ds, hs, hf⟩ := atari_files_scan hm
  intro d hd
  rw [hf] at hd
  exact scan_parsed _ _ _ _ hs d (List.mem_filter.mp hd).1

/-- no newline in the text -/
abbrev OneLine (t : List Char) : Prop := '\n' ∉ t

theorem oneLine_append {s t : List Char} (h1 : OneLine s) (h2 : OneLine t) : OneLine (s ++ t) := fun h =>
  (List.mem_append.mp h).elim h1 h2

theorem oneLine_fill (k : Nat) {c : Char} (h : c ≠ '\n') : OneLine (List.replicate k c) := fun hm => h (List.mem_replicate.mp hm).2.symm

theorem oneLine_digits (n : Nat) : OneLine (Nat.toDigits 10 n) := fun h => absurd (digits_isDigit n _ h) (by decide)

theorem oneLine_pctD (i : Int) : OneLine (pctD i) := by
  cases i with
  | ofNat n => exact oneLine_digits n
  | negSucc n => exact fun h => (List.mem_cons.mp h).elim (by decide) (oneLine_digits _)

theorem oneLine_pctZero (w : Nat) (i : Int) : OneLine (pctZero w i) := by
  cases i with
  | ofNat n => exact oneLine_append (oneLine_fill _ (by decide)) (oneLine_digits n)
  | negSucc n =>
    exact fun h => (List.mem_cons.mp h).elim (by decide) (oneLine_append (oneLine_fill _ (by decide)) (oneLine_digits _))

theorem oneLine_pctLeft (w : Nat) {t : List Char} (h : OneLine t) : OneLine (pctLeft w t) := oneLine_append h (oneLine_fill _ (by decide))

theorem oneLine_lineHead (n : Nat) {f : List Char} (h : OneLine f) : OneLine (lineHead n f) := by
  unfold lineHead
  exact oneLine_append (oneLine_append (oneLine_append (oneLine_append (by decide) (oneLine_pctLeft _ (oneLine_pctD _))) (by decide)) h) (by decide)

theorem char_newline : ∀ n, n < 256 → (Char.ofNat n = '\n' ↔ n = 10) := by decide +kernel

theorem oneLine_latin1 {b : Bytes} : OneLine (latin1 b) ↔ (10 : UInt8) ∉ b := by
  unfold OneLine latin1
  rw [List.mem_map]
  constructor
  · exact fun h hb => h ⟨10, hb, rfl⟩
  · rintro h ⟨c, hc, he⟩
    have : c = 10 := UInt8.toNat_inj.mp ((char_newline c.toNat (UInt8.toNat_lt c)).mp he)
    exact h (this ▸ hc)

theorem mark_newline (b : Bool) {c e : Char} (h1 : c ≠ '\n') (h2 : e ≠ '\n') : '\n' ≠ mark b c e := by
  cases b
  · exact h2.symm
  · exact h1.symm

theorem ADirent.summary_oneLine (d : ADirent) : OneLine d.summary := by
  unfold OneLine ADirent.summary
  simp only [List.mem_cons, List.not_mem_nil, or_false, not_or]
  exact ⟨mark_newline _ (by decide) (by decide), mark_newline _ (by decide) (by decide), mark_newline _ (by decide) (by decide),
    mark_newline _ (by decide) (by decide), mark_newline _ (by decide) (by decide), mark_newline _ (by decide) (by decide)⟩

/-- **C87, newlines.** The text printed for an Atari entry is one line exactly if its name has no byte 10. -/
theorem C87_newline (d : ADirent) : OneLine d.line ↔ (10 : UInt8) ∉ d.basename ∧ (10 : UInt8) ∉ d.ext := by
  rw [← oneLine_latin1, ← oneLine_latin1]
  unfold ADirent.line
  constructor
  · intro h
    exact ⟨fun hb => h (by simp [pctLeft, hb]), fun hb => h (by simp [pctLeft, hb])⟩
  · rintro ⟨h1, h2⟩
    exact oneLine_append (oneLine_append (oneLine_append (oneLine_append (oneLine_append (oneLine_append
      (oneLine_lineHead _ d.summary_oneLine) (oneLine_pctZero _ _)) (by decide)) (oneLine_pctLeft _ h1)) (oneLine_pctLeft _ h2)) (by decide)) (oneLine_pctZero _ _)

/-- number of lines of a text that ends in a newline -/
theorem linesOf_count (t : List Char) : ∀ acc, (linesOf.go acc (t ++ ['\n'])).length = t.count '\n' + 1 := by
  induction t with
  | nil => intro acc; rfl
  | cons c t ih =>
    intro acc
    rw [List.cons_append, linesOf.go, List.count_cons]
    by_cases h : c = '\n'
    · rw [if_pos h, List.length_cons, ih, if_pos (by simp [h])]
    · rw [if_neg h, ih, if_neg (by simpa using h)]

/-- **C87, more lines than files.** An entry with byte 10 in its name makes `list` print more than one line for it. -/
theorem C87_newline_lines (d : ADirent) (h : (10 : UInt8) ∈ d.basename) : 1 < (linesOf (stdout [d.line])).length := by
  have hn : ¬ OneLine d.line := fun hh => ((C87_newline d).mp hh).1 h
  have : 0 < d.line.count '\n' := List.count_pos_iff.mpr (Decidable.not_not.mp hn)
  unfold linesOf stdout
  rw [List.flatMap_cons, List.flatMap_nil, List.append_nil, linesOf_count]
  omega

/-- **C87, the screen.** If no name on an Atari disk has a byte 10, the screen shows one line for each file of the directory, and the lines say what the
directory says. -/
theorem C87_screen {b : Bytes} {m : AImg} (hm : AImg.open b = .ok m) (segs : List ISeg)
    (hn : ∀ i ∈ atariFiles (dirBytes m.hdr b), (10 : UInt8) ∉ slice (atariEntry (dirBytes m.hdr b) i) 5 16) :
    (linesOf (stdout (printList false false [] (Image.atari m segs).rows).1)).map readAtari =
      (atariFiles (dirBytes m.hdr b)).map fun i => some (atariLineOf (dirBytes m.hdr b) i, []) := by
  have h := C87_atari hm
  rw [C87_list]
  have ha : (asked [] (Image.atari m segs).rows).map Row.line = m.files.map ADirent.line := by
    unfold asked
    rw [List.filter_eq_self.mpr (fun a _ => by simp)]
    show List.map _ (List.map _ _) = _
    rw [List.map_map]; rfl
  rw [ha]
  have hone : ∀ t ∈ m.files.map ADirent.line, '\n' ∉ t := by
    intro t ht
    obtain ⟨d, hd, rfl⟩ := List.mem_map.mp ht
    -- the line of `d` reads as the line of an entry
    have hmem : readAtari d.line ∈ m.files.map fun d => readAtari d.line := List.mem_map_of_mem hd
    rw [h] at hmem
    obtain ⟨i, hi, he⟩ := List.mem_map.mp hmem
    have hd2 : ∃ e k, e.length = 16 ∧ ADirent.parse m.hdr k e = .ok d := by
      exact atari_files_parsed hm d hd
    obtain ⟨e, k, hl, hp⟩ := hd2
    have key : noBlanks (latin1 d.basename) = latin1 d.basename ∧ noBlanks (latin1 d.ext) = latin1 d.ext ∧ d.basename.length ≤ 8 ∧ d.ext.length ≤ 3 ∧
        ∃ s : Nat, d.startingSector = s := by
      match e, hl with
      | [f, c0, c1, s0, s1, n0, n1, n2, n3, n4, n5, n6, n7, e0, e1, e2], _ =>
        cases hp
        exact ⟨noBlanks_chars _, noBlanks_chars _, length_trimmed [n0, n1, n2, n3, n4, n5, n6, n7], length_trimmed [e0, e1, e2], _, rfl⟩
    obtain ⟨q1, q2, q3, q4, s, q5⟩ := key
    have hr := readAtari_line d q5 q3 q4 noDigit_nil
    rw [List.append_nil, ← he, q1, q2] at hr
    have hr := (Prod.mk.inj (Option.some.inj hr)).1
    have r1 : chars (trimmed (slice (atariEntry (dirBytes m.hdr b) i) 5 13)) = latin1 d.basename := congrArg AtariLine.name hr
    have r2 : chars (trimmed (slice (atariEntry (dirBytes m.hdr b) i) 13 16)) = latin1 d.ext := congrArg AtariLine.ext hr
    have hi := hn i hi
    refine (C87_newline d).mpr ⟨oneLine_latin1.mp ?_, oneLine_latin1.mp ?_⟩
    · rw [← r1]
      exact oneLine_latin1.mpr fun hb => hi (mem_slice_of (mem_rstripNul (mem_rstripWs hb)) (by omega) (by omega))
    · rw [← r2]
      exact oneLine_latin1.mpr fun hb => hi (mem_slice_of (mem_rstripNul (mem_rstripWs hb)) (by omega) (by omega))
  rw [C87_lines _ hone, List.map_map]
  exact h

/-! ### columns -/

theorem pctZero_length {n : Nat} (h : n < 1000) : (pctZero 3 n).length = 3 := by
  have : (Nat.toDigits 10 n).length ≤ 3 := (Nat.length_toDigits_le_iff (by decide) (by decide)).mpr h
  show (List.replicate _ '0' ++ Nat.toDigits 10 n).length = 3
  rw [List.length_append, List.length_replicate]
  omega

theorem pctLeft_length {w : Nat} {t : List Char} (h : t.length ≤ w) : (pctLeft w t).length = w := by
  unfold pctLeft; rw [List.length_append, List.length_replicate]; omega

/-- **C87, columns.** On disks of fewer than 1000 sectors with fewer than 100 entries all lines have 38 characters, with the name in columns 22 to 29 and
the extension in columns 30 to 32. -/
theorem C87_columns (d : ADirent) {s : Nat} (hs : d.startingSector = s) (h1 : d.fileNum < 100) (h2 : s < 1000) (h3 : d.numSectors < 1000)
    (hb : d.basename.length ≤ 8) (he : d.ext.length ≤ 3) : d.line.length = 38 ∧
    slice d.line 22 30 = chars d.basename ++ List.replicate (8 - d.basename.length) ' ' ∧
    slice d.line 30 33 = chars d.ext ++ List.replicate (3 - d.ext.length) ' ' := by
  have l1 : (lineHead d.fileNum d.summary).length = 18 := by
    have : (pctD (d.fileNum : Int)).length ≤ 2 := (Nat.length_toDigits_le_iff (by decide) (by decide)).mpr h1
    unfold lineHead
    simp only [List.length_append, pctLeft_length this]
    rfl
  have l2 := pctZero_length h2
  have l3 := pctZero_length h3
  have l4 : (pctLeft 8 (latin1 d.basename)).length = 8 := pctLeft_length (by unfold latin1; rw [List.length_map]; exact hb)
  have l5 : (pctLeft 3 (latin1 d.ext)).length = 3 := pctLeft_length (by unfold latin1; rw [List.length_map]; exact he)
  have e : d.line = (lineHead d.fileNum d.summary ++ pctZero 3 s ++ [' ']) ++ (pctLeft 8 (latin1 d.basename) ++ (pctLeft 3 (latin1 d.ext) ++
      ([' ', ' '] ++ pctZero 3 d.numSectors))) := by
    unfold ADirent.line
    rw [hs]
    simp only [List.append_assoc]
    rfl
  have lp : (lineHead d.fileNum d.summary ++ pctZero 3 s ++ [' ']).length = 22 := by
    simp only [List.length_append, l1, l2, List.length_cons, List.length_nil]
  have lat : ∀ b : Bytes, (latin1 b).length = b.length := fun b => by unfold latin1; rw [List.length_map]
  refine ⟨?_, ?_, ?_⟩
  · rw [e]
    simp only [List.length_append, lp, l4, l5, l3, List.length_cons, List.length_nil]
  · rw [e]
    generalize lineHead d.fileNum d.summary ++ pctZero 3 s ++ [' '] = p at lp
    unfold slice
    rw [show 30 = p.length + 8 by omega, List.take_length_add_append, show 22 = p.length by omega, List.drop_left, List.take_append_of_le_length (by omega),
      List.take_of_length_le (by omega)]
    unfold pctLeft
    rw [lat]; rfl
  · rw [e, ← List.append_assoc]
    have lq : ((lineHead d.fileNum d.summary ++ pctZero 3 s ++ [' ']) ++ pctLeft 8 (latin1 d.basename)).length = 30 := by
      rw [List.length_append, lp, l4]
    generalize (lineHead d.fileNum d.summary ++ pctZero 3 s ++ [' ']) ++ pctLeft 8 (latin1 d.basename) = p at lq
    unfold slice
    rw [show 33 = p.length + 3 by omega, List.take_length_add_append, show 30 = p.length by omega, List.drop_left, List.take_append_of_le_length (by omega),
      List.take_of_length_le (by omega)]
    unfold pctLeft
    rw [lat]; rfl

/-- **C87, directories.** The line of an Atari entry does not show whether it is a (MyDOS) directory: the entry of a file and the same entry with bit 4
of the flag set or cleared have the same line. -/
theorem C87_directory_hidden (h : AHeader) (num : Nat) (e : Bytes) (he : e.length = 16) : ∃ d d', ADirent.parse h num e = .ok d ∧
    ADirent.parse h num (e.set 0 (e.getD 0 0 ^^^ 0x10)) = .ok d' ∧ d'.isDir = !d.isDir ∧ d'.line = d.line := by
  match e, he with
  | [f, c0, c1, s0, s1, n0, n1, n2, n3, n4, n5, n6, n7, e0, e1, e2], _ =>
    have hx : ∀ k, (f ^^^ 0x10).toNat.testBit k = (f.toNat.testBit k ^^ (16 : Nat).testBit k) := fun k => by
      rw [UInt8.toNat_xor, Nat.testBit_xor]; rfl
    have hsame : ∀ k, k ≠ 4 → (f ^^^ 0x10).toNat.testBit k = f.toNat.testBit k := fun k hk => by
      rw [hx, show (16 : Nat) = 2 ^ 4 from rfl, Nat.testBit_two_pow_of_ne (Ne.symm hk), Bool.xor_false]
    refine ⟨_, _, rfl, rfl, ?_, ?_⟩
    · show (f ^^^ 0x10).toNat.testBit 4 = !f.toNat.testBit 4
      rw [hx]
      cases f.toNat.testBit 4 <;> rfl
    · unfold ADirent.line ADirent.summary
      simp only [List.getD_cons_zero]
      rw [hsame 0 (by decide), hsame 1 (by decide), hsame 2 (by decide), hsame 5 (by decide), hsame 6 (by decide), hsame 7 (by decide)]

/-! ### the first line -/

/-- **C87, the first line.** In the line about the image that `list` prints first, the number of files is the number of lines that follow, and whatever is
done to the disk, nothing but this number changes: the number of free sectors stays what it was (see C41). -/
theorem C87_summary {m m' : AImg} {ds} (hm : Mounted m ds) (hr : Reach m m') (segs : List ISeg) : ∃ p : Text,
    m.summary = p ++ pctD (printList false false [] (Image.atari m segs).rows).1.length ++ " files".toList ∧
    m'.summary = p ++ pctD (printList false false [] (Image.atari m' segs).rows).1.length ++ " files".toList := by
  obtain ⟨h1, h2⟩ := C41_partial hm hr
  obtain ⟨_, -, h3, -, -⟩ := reach_reserved hm hr
  have hl : ∀ m : AImg, (printList false false [] (Image.atari m segs).rows).1.length = m.files.length := fun m => by
    rw [C87_list]
    unfold asked
    rw [List.filter_eq_self.mpr (fun a _ => by simp), List.length_map]
    show (List.map _ _).length = _
    rw [List.length_map]
  refine ⟨m.hdr.summary ++ " Atari DOS Format: ".toList ++ pctD m.total ++ " usable sectors (".toList ++ pctD m.unused ++ " free), ".toList, ?_, ?_⟩
  · rw [hl]; rfl
  · rw [hl]; unfold AImg.summary; rw [h1, h2, h3]

/-! ### cases -/

/-- an entry of the directory of a DOS 2.0 disk and its line -/
example : (match ADirent.parse { imageSize := 92160, headerOffset := 16, maxSectors := 720 } 0 [0x62, 39, 0, 4, 0, 68, 79, 83, 32, 32, 32, 32, 32, 83, 89, 83] with
    | .ok d => d.line
    | .error _ => []) = "File #0  (.2.u.*) 004 DOS     SYS  039".toList := by decide +kernel

/-- lines of a DOS 3.3 disk; a deleted entry shows no type, and large numbers move the columns -/
example : ({ fileNum := 3, ftype := 4, locked := true, track := 18, sector := 15, filename := [72, 69, 76, 76, 79], numSectors := 2 } : DDirent).line =
    "File #3  (*B) 002 HELLO                          018 015".toList := by decide +kernel
example : ({ fileNum := 3, ftype := 4, deleted := true, filename := [72, 73], numSectors := 1200 } : DDirent).line =
    "File #3  (D ) 1200 HI                             000 000".toList := by decide +kernel

/-- the length of a SpartaDOS file is printed as the program computes it, below zero too -/
example : ({ fileNum := 12, inUse := true, startingSector := 7, basename := [65], ext := [66, 67], length := -256, stamp := [1, 2, 99, 23, 59, 0] } : SDirent).line =
    "File #12 (..u.  007) A       BC       -256  1/2/99 23:59:0".toList := by decide +kernel

/-- the standard test value of the checksum -/
example : crc32 [0x31, 0x32, 0x33, 0x34, 0x35, 0x36, 0x37, 0x38, 0x39] = 0xcbf43926 := by decide +kernel
example : pctHex (crc32 [0x31, 0x32, 0x33, 0x34, 0x35, 0x36, 0x37, 0x38, 0x39]) = "cbf43926".toList := by decide +kernel

/-- with checksums, the listing stops at the first file that cannot be read; without, all are listed -/
example : printList true false [] [⟨['a'], [65], .ok [], .ok []⟩, ⟨['b'], [66], .error .indexError, .ok []⟩, ⟨['c'], [67], .ok [], .ok []⟩] =
    (["a  00000000".toList], .error .indexError) := by decide +kernel
example : printList true false [[65], [67]] [⟨['a'], [65], .ok [], .ok []⟩, ⟨['b'], [66], .error .indexError, .ok []⟩, ⟨['c'], [67], .ok [], .ok []⟩] =
    (["a  00000000".toList, "c  00000000".toList], .ok ()) := by decide +kernel

/-- a name with a newline in it -/
example : linesOf (stdout [(match ADirent.parse { imageSize := 92160, headerOffset := 16, maxSectors := 720 } 0 [0x42, 1, 0, 4, 0, 65, 10, 66, 32, 32, 32, 32, 32, 83, 89, 83] with
    | .ok d => d.line
    | .error _ => [])]) = ["File #0  (.2.u. ) 004 A".toList, "B     SYS  001".toList] := by decide +kernel

/-- the line about an empty DOS 2.0 disk -/
example : ({ hdr := { imageSize := 92160, headerOffset := 16, maxSectors := 720 }, bytes := [], total := 707, unused := 707 } : AImg).summary =
    "ATR Disk Image (size=92160 (720x128B), crc=0 flags=0 unused=0) Atari DOS Format: 707 usable sectors (707 free), 0 files".toList := by decide +kernel

end Atr
