import Verif.Model.VtocText
import Verif.Spec.VtocText
import Verif.Props.Display
import Verif.Props.AtariBoot
import Verif.Props.SpartaShown
import Verif.Props.SpartaShred
import Verif.Props.Dos33Compact
import Verif.Props.Refused
/-!
# C104: what `vtoc` prints
-/
namespace Atr

/-! ### arrays as text -/

theorem digits_bitsText : ∀ r : List Bool, ((bitsText r).filter Char.isDigit).map (· == '1') = r := by
  have key : ∀ r : List Bool, (((r.map fun x => mark x '1' '0').intersperse ' ').filter Char.isDigit).map (· == '1') = r := by
    intro r
    induction r with
    | nil => rfl
    | cons x r ih =>
      cases r with
      | nil => cases x <;> rfl
      | cons y r =>
        rw [List.map_cons] at ih
        rw [List.map_cons, List.map_cons, List.intersperse_cons_cons, List.filter_cons, List.filter_cons]
        cases x
        · exact congrArg (false :: ·) ih
        · exact congrArg (true :: ·) ih
  intro r
  unfold bitsText
  rw [List.cons_append, List.filter_cons, List.filter_append]
  simp only [show Char.isDigit '[' = false from rfl, Bool.false_eq_true, if_false]
  rw [show [']'].filter Char.isDigit = [] from rfl, List.append_nil]
  exact key r

theorem chars_bitsText (r : List Bool) : ∀ c ∈ bitsText r, c ∈ "[] 01".toList := by
  have key : ∀ r : List Bool, ∀ c ∈ (r.map fun x => mark x '1' '0').intersperse ' ', c ∈ "[] 01".toList := by
    intro r
    induction r with
    | nil => intro c h; cases h
    | cons x r ih =>
      have hx : mark x '1' '0' ∈ "[] 01".toList := by cases x <;> decide
      cases r with
      | nil => intro c h; rw [List.mem_singleton.mp h]; exact hx
      | cons y r =>
        intro c h
        rw [List.map_cons] at ih h
        rw [List.map_cons] at h
        rw [List.intersperse_cons_cons] at h
        rcases List.mem_cons.mp h with h | h
        · rw [h]; exact hx
        · rcases List.mem_cons.mp h with h | h
          · rw [h]; decide
          · exact ih c h
  intro c h
  unfold bitsText at h
  rcases List.mem_cons.mp h with h | h
  · rw [h]; decide
  · rcases List.mem_append.mp h with h | h
    · exact key r c h
    · rw [List.mem_singleton.mp h]; decide

/-- what is in line `i`: its figures, and only figures, brackets and blanks -/
theorem arrayLines_get : ∀ (rows : List (List Bool)) (first : Bool) (i : Nat) (r : List Bool), rows[i]? = some r →
    ∃ l, (arrayLines first rows)[i]? = some l ∧ (l.filter Char.isDigit).map (· == '1') = r ∧ ∀ c ∈ l, c ∈ "[] 01".toList := by
  intro rows
  induction rows with
  | nil => intro first i r h; cases h
  | cons a rows ih =>
    intro first i r h
    have hm : mark first '[' ' ' ∈ "[] 01".toList ∧ Char.isDigit (mark first '[' ' ') = false := by cases first <;> decide
    cases rows with
    | nil =>
      cases i with
      | succ i => cases h
      | zero =>
        cases h
        refine ⟨_, rfl, ?_, fun c hc => ?_⟩
        · rw [List.cons_append, List.filter_cons, if_neg (by rw [hm.2]; decide), List.filter_append, show [']'].filter Char.isDigit = [] from rfl,
            List.append_nil, digits_bitsText]
        · rcases List.mem_append.mp hc with hc | hc
          · rcases List.mem_cons.mp hc with hc | hc
            · rw [hc]; exact hm.1
            · exact chars_bitsText a c hc
          · rw [List.mem_singleton.mp hc]; decide
    | cons b rows =>
      cases i with
      | succ i => exact ih false i r h
      | zero =>
        cases h
        refine ⟨_, rfl, ?_, fun c hc => ?_⟩
        · rw [List.filter_cons, if_neg (by rw [hm.2]; decide), digits_bitsText]
        · rcases List.mem_cons.mp hc with hc | hc
          · rw [hc]; exact hm.1
          · exact chars_bitsText a c hc

theorem length_arrayLines : ∀ (rows : List (List Bool)) (first : Bool), (arrayLines first rows).length = rows.length := by
  intro rows
  induction rows with
  | nil => intro first; rfl
  | cons a rows ih =>
    intro first
    cases rows with
    | nil => rfl
    | cons b rows => exact congrArg (· + 1) (ih false)

/-! ### the lines -/

theorem getElem?_chunks_ok {α : Type} (n : Nat) (hn : 0 < n) (k : Nat) : ∀ (l : List α), l.length = n * k → ∀ j, j < k →
    (chunks n l)[j]? = some ((l.drop (n * j)).take n) := by
  induction k with
  | zero => intro l _ j h; omega
  | succ k ih =>
    intro l hl j hj
    have hne : l ≠ [] := by
      intro h
      rw [h, List.length_nil, Nat.mul_add] at hl
      omega
    rw [chunks_cons n hn l hne]
    cases j with
    | zero => rw [Nat.mul_zero, List.drop_zero]; rfl
    | succ j =>
      rw [List.getElem?_cons_succ, ih _ (by rw [List.length_drop, hl, Nat.mul_add]; omega) j (by omega), List.drop_drop]
      congr 3
      rw [Nat.mul_add]
      omega

theorem length_chunks_ok {α : Type} (n : Nat) (hn : 0 < n) (k : Nat) : ∀ (l : List α), l.length = n * k → (chunks n l).length = k := by
  induction k with
  | zero =>
    intro l hl
    have : l = [] := List.length_eq_zero_iff.mp (by simpa using hl)
    rw [this, chunks_nil]
    rfl
  | succ k ih =>
    intro l hl
    have hne : l ≠ [] := by
      intro h
      rw [h, List.length_nil, Nat.mul_add] at hl
      omega
    rw [chunks_cons n hn l hne, List.length_cons, ih _ (by rw [List.length_drop, hl, Nat.mul_add]; omega)]

/-- **C104, the lines.** There is a line for every track, with the figures of its sectors, and one with the number of all sectors marked as free. -/
theorem C104_lines (label tracks : Nat) {per : Nat} (hp : 0 < per) {map : List Bool} (hm : tracks * per + label ≤ map.length) :
    (vtocLines label tracks per map).length = tracks + 1 ∧ ShowsTracks label tracks per (fun s => map[s]? = some true) (vtocLines label tracks per map) ∧
    (vtocLines label tracks per map)[tracks]?.bind readFree = some (map.count true) ∧ ∀ l ∈ vtocLines label tracks per map, '\n' ∉ l := by
  have hl : (slice map label (tracks * per + label)).length = per * tracks := by rw [length_slice, Nat.mul_comm per]; omega
  have hc := length_chunks_ok per hp tracks _ hl
  have hlen : ((arrayLines true (chunks per (slice map label (tracks * per + label)))).zipIdx.map
      (fun x => "track ".toList ++ pctZero 2 x.2 ++ ": ".toList ++ x.1)).length = tracks := by
    rw [List.length_map, List.length_zipIdx, length_arrayLines, hc]
  have row : ∀ t, t < tracks → ∃ l, (arrayLines true (chunks per (slice map label (tracks * per + label))))[t]? = some l ∧
      (l.filter Char.isDigit).map (· == '1') = ((slice map label (tracks * per + label)).drop (per * t)).take per ∧ ∀ c ∈ l, c ∈ "[] 01".toList :=
    fun t ht => arrayLines_get _ true t _ (getElem?_chunks_ok per hp tracks _ hl t ht)
  refine ⟨?_, ?_, ?_, ?_⟩
  · unfold vtocLines
    rw [List.length_append, hlen]
    rfl
  · intro t ht
    obtain ⟨l, h1, h2, h3⟩ := row t ht
    refine ⟨"track ".toList ++ pctZero 2 t ++ ": ".toList ++ l, ((slice map label (tracks * per + label)).drop (per * t)).take per, ?_, ?_, ?_, ?_⟩
    · unfold vtocLines
      rw [List.getElem?_append_left (by rw [hlen]; exact ht), List.getElem?_map, List.getElem?_zipIdx, h1]
      simp
    · unfold readTrack
      rw [List.append_assoc, List.append_assoc, expect_append]
      simp only [Option.bind_eq_bind, Option.bind_some]
      rw [number_pctZero 2 t (t := ": ".toList ++ l) (noDigit_cons (t := ' ' :: l) rfl)]
      simp only [Option.bind_some]
      rw [expect_append]
      simp only [Option.bind_some]
      rw [if_pos (List.all_eq_true.mpr fun c hc => List.contains_iff_mem.mpr (h3 c hc)), h2]
    · have : per * t + per ≤ per * tracks := by
        rw [← Nat.mul_succ]
        exact Nat.mul_le_mul_left _ ht
      rw [List.length_take, List.length_drop, hl]
      omega
    · intro j hj
      have : per * t + per ≤ per * tracks := by
        rw [← Nat.mul_succ]
        exact Nat.mul_le_mul_left _ ht
      unfold slice
      rw [List.getElem?_take_of_lt hj, List.getElem?_drop, List.getElem?_drop, List.getElem?_take_of_lt (by rw [Nat.mul_comm tracks]; omega), Nat.add_assoc]
  · unfold vtocLines
    rw [List.getElem?_append_right (by rw [hlen]; exact Nat.le_refl _), hlen, Nat.sub_self]
    simp only [List.getElem?_cons_zero, Option.bind_some]
    unfold readFree
    rw [List.append_assoc, expect_append]
    simp only [Option.bind_eq_bind, Option.bind_some]
    rw [number_pctD _ (t := " free)".toList) (noDigit_cons (t := "free)".toList) rfl)]
    rfl
  · intro l hm
    unfold vtocLines at hm
    rcases List.mem_append.mp hm with hm | hm
    · obtain ⟨⟨x, t⟩, h1, rfl⟩ := List.mem_map.mp hm
      have hx := List.mem_zipIdx' h1
      have ht : t < tracks := by
        have := hx.1
        rwa [length_arrayLines, hc] at this
      obtain ⟨l, k1, k2, k3⟩ := row t ht
      have e : x = l := by
        rw [List.getElem?_eq_getElem hx.1] at k1
        exact hx.2.trans (Option.some.inj k1)
      refine oneLine_append (oneLine_append (oneLine_append (by decide) (oneLine_pctZero _ _)) (by decide)) ?_
      intro hn
      rw [e] at hn
      exact absurd (k3 _ hn) (by decide)
    · rw [List.mem_singleton.mp hm]
      exact oneLine_append (oneLine_append (by decide) (oneLine_pctD _)) (by decide)

/-! ### counting -/

theorem length_freeFrom : ∀ (m : List Bool) (k : Nat), (freeFrom k m).length = m.count true := by
  intro m
  induction m with
  | nil => intro k; rfl
  | cons a m ih =>
    intro k
    cases a with
    | true => rw [freeFrom, List.length_cons, ih, List.count_cons_self]
    | false => rw [freeFrom, ih, List.count_cons_of_ne (by decide)]

/-- the number of marks, if the sectors from `n` on have none -/
theorem count_free {map : List Bool} {n : Nat} (hn : n ≤ map.length) {F : Nat → Prop} [DecidablePred F] (hf : ∀ s, map[s]? = some true ↔ F s) (hl : ∀ s, F s → s < n) :
    map.count true = ((List.range n).filter fun s => decide (F s)).length := by
  rw [← length_freeFrom map 0, freeFrom_eq, ← List.range_eq_range', show map.length = n + (map.length - n) by omega, List.range_add, List.filter_append]
  have h2 : ((List.range (map.length - n)).map (n + ·)).filter (fun i => map[i - 0]? == some true) = [] := by
    rw [List.filter_eq_nil_iff]
    intro a ha hc
    obtain ⟨j, -, rfl⟩ := List.mem_map.mp ha
    have := hl _ ((hf _).mp (eq_of_beq hc))
    omega
  rw [h2, List.append_nil]
  congr 1
  refine List.filter_congr fun s _ => ?_
  rw [Nat.sub_zero, Bool.eq_iff_iff, beq_iff_eq, decide_eq_true_iff]
  exact hf s

/-! ### Atari DOS -/

theorem atari_map {b : Bytes} {m : AImg} (hm : AImg.open b = .ok m) :
    (100 ≤ m.hdr.sectorSize → ∃ vt, m.getVtocObject = .ok vt ∧ vt.map.length = 1280 ∧ ∀ s, vt.map[s]? = some true ↔ AtariFree m.hdr b s) ∧
    (m.hdr.sectorSize < 100 → m.getVtocObject = .error .valueError) := by
  obtain ⟨ho, hb, h1, h2, h3⟩ := open_first hm
  have g := openHeader_geom ho
  obtain ⟨h', ho', hmax, hv, -⟩ := (C58_opens_iff b).mp ⟨m, hm⟩
  rw [ho] at ho'
  cases ho'
  have hi : m.hdr.numInitialSectors < 360 := by
    rcases g.inits with ⟨i1, -⟩ | ⟨i1, -⟩ <;> omega
  have d360 : m.hdr.DataSec 360 := ⟨hi, by omega⟩
  have e2 : ∃ q, (if m.vtoc2 > 0 then m.hdr.getContiguous m.vtoc2 1 else Except.ok (0, 0)) = Except.ok q := by
    by_cases he : m.hdr.imageSize = 133120
    · have := hv.2.2 he
      rw [h3, if_pos he, if_pos (by omega), getContiguous_one g ⟨by omega, by omega⟩]
      exact ⟨_, rfl⟩
    · rw [h3, if_neg he]
      exact ⟨_, rfl⟩
  obtain ⟨q, hq⟩ := e2
  have hsec : View.read ⟨m.hdr.dpos 360, m.hdr.sectorSize⟩ m.bytes = sectorBytes m.hdr b 360 := by
    rw [sectorBytes_sec g hi (by omega), hb]; rfl
  have hlen : (sectorBytes m.hdr b 360).length = m.hdr.sectorSize := by
    rw [sectorBytes_sec g hi (by omega)]
    exact length_sec g d360
  unfold AImg.getVtocObject
  rw [h1, h2, show (1 : Int).toNat = 1 from rfl, getContiguous_one g d360]
  simp only
  rw [hq]
  simp only
  rw [hsec]
  constructor
  · intro h100
    rw [if_pos (by rw [length_unpackbits, length_slice]; omega)]
    refine ⟨_, rfl, ?_, fun s => ?_⟩
    · rw [List.length_append, length_unpackbits, length_slice, List.length_replicate]; omega
    · have := free_bit (v := sectorBytes m.hdr b 360) (by omega) s
      rw [show (s + 80) / 8 = 10 + s / 8 by omega, show (s + 80) % 8 = s % 8 by omega] at this
      exact this
  · intro h100
    rw [if_neg (by rw [length_unpackbits, length_slice]; omega)]

/-- **C104, Atari DOS.** For a disk that opens and has sectors of 100 bytes at least, `vtoc` prints a line for each of 40 tracks of 18 sectors, with a 1
for every free sector, and the number of the sectors below 720 that are marked as free. -/
theorem C104_atari {b : Bytes} {m : AImg} (hm : AImg.open b = .ok m) (hs : 100 ≤ m.hdr.sectorSize) (segs : List ISeg) : ∃ L,
    (Image.atari m segs).vtocText = .ok L ∧ L.length = 41 ∧ linesOf (stdout L) = L ∧ ShowsTracks 1 40 18 (AtariFree m.hdr b) L ∧
    L[40]?.bind readFree = some ((List.range 720).filter fun s => decide (AtariFree m.hdr b s)).length := by
  obtain ⟨vt, h1, h2, h3⟩ := (atari_map hm).1 hs
  have hl : m.hdr.startingSectorLabel = 1 := (openHeader_geom (open_first hm).1).label
  obtain ⟨k1, k2, k3, k4⟩ := C104_lines 1 40 (per := 18) (by omega) (map := vt.map) (by omega)
  refine ⟨_, by show m.getVtocObject.map _ = _; rw [h1, hl]; rfl, k1, C87_lines _ k4, ?_, ?_⟩
  · intro t ht
    obtain ⟨l, f, a1, a2, a3, a4⟩ := k2 t ht
    exact ⟨l, f, a1, a2, a3, fun j hj => (a4 j hj).trans (h3 _)⟩
  · rw [k3, count_free (n := 720) (by omega) h3 (fun s h => h.1)]

/-- … and for smaller sectors it fails. -/
theorem C104_atari_small {b : Bytes} {m : AImg} (hm : AImg.open b = .ok m) (hs : m.hdr.sectorSize < 100) (segs : List ISeg) :
    (Image.atari m segs).vtocText = .error .valueError := by
  show m.getVtocObject.map _ = _
  rw [(atari_map hm).2 hs]
  rfl

theorem filter_first {F : Nat → Prop} [DecidablePred F] (n : Nat) (hn : ∀ s, F s → s < n + 1) (h0 : F 0) :
    ((List.range (n + 1)).filter fun s => decide (F s)).length = 1 + ((List.range' 1 (n + 1)).filter fun s => decide (F s)).length := by
  rw [List.range_eq_range', List.range'_succ, List.filter_cons, if_pos (decide_eq_true h0), List.length_cons, Nat.zero_add, ← List.range'_append_1 (s := 1) (m := n) (n := 1),
    List.filter_append]
  have : (List.range' (1 + n) 1).filter (fun s => decide (F s)) = [] := by
    rw [List.filter_eq_nil_iff]
    intro a ha hc
    have := hn a (of_decide_eq_true hc)
    have := List.mem_range'_1.mp ha
    omega
  rw [this, List.append_nil]
  omega

/-- **C104, refuted: the number.** If the bit of sector 0, which does not exist, is set, then the number printed is one more than the number of free
sectors among those shown. -/
theorem C104_refuted_zero {b : Bytes} {m : AImg} (hm : AImg.open b = .ok m) (hs : 100 ≤ m.hdr.sectorSize) (segs : List ISeg) (h0 : AtariFree m.hdr b 0) : ∃ L,
    (Image.atari m segs).vtocText = .ok L ∧ ShowsTracks 1 40 18 (AtariFree m.hdr b) L ∧
    L[40]?.bind readFree = some (1 + ((List.range' 1 720).filter fun s => decide (AtariFree m.hdr b s)).length) := by
  obtain ⟨L, h1, -, -, h2, h3⟩ := C104_atari hm hs segs
  exact ⟨L, h1, h2, by rw [h3, filter_first 719 (fun s h => h.1) h0]⟩

theorem free_number {m : AImg} {ds} (hm : Mounted m ds) (segs : List ISeg) : ∃ L, (Image.atari m segs).vtocText = .ok L ∧
    L[40]?.bind readFree = some (freePool m.hdr m.bytes).length := by
  obtain ⟨c, hmount⟩ := mounted_iff.mp hm
  have hs : 100 ≤ m.hdr.sectorSize := by rcases c.sectorSize with h | h <;> omega
  have hop : AImg.open m.bytes = .ok m := hm.1
  obtain ⟨vt, h1, h2, h3⟩ := (atari_map hop).1 hs
  have hl : m.hdr.startingSectorLabel = 1 := (openHeader_geom (open_first hop).1).label
  obtain ⟨k1, k2, k3, k4⟩ := C104_lines 1 40 (per := 18) (by omega) (map := vt.map) (by omega)
  refine ⟨_, by show m.getVtocObject.map _ = _; rw [h1, hl]; rfl, ?_⟩
  rw [k3]
  have := getVtocObject_eq c.toLoose
  rw [← hmount, h1] at this
  have hv : vt.map = freeMap m.hdr m.bytes ++ List.replicate 560 false := congrArg AVtoc.map (Except.ok.inj this)
  rw [hv, ← length_freeFrom _ 0]
  exact congrArg (fun l => some (List.length l)) (freeList_pad _ _)

/-- **C104, after a write.** On a consistent disk the number printed goes down by exactly the number of sectors the new file needs. -/
theorem C104_write {m m' : AImg} {ds} {name data : Bytes} (hm : Mounted m ds) (hc : Canon83 name) (hnew : name ∉ m.names) (hslot : m.files.length < 64)
    (hne : data ≠ []) (hw : AImg.writeFile name data m = (.ok (), m')) (segs segs' : List ISeg) : ∃ L L' n n',
    (Image.atari m segs).vtocText = .ok L ∧ (Image.atari m' segs').vtocText = .ok L' ∧ L[40]?.bind readFree = some n ∧ L'[40]?.bind readFree = some n' ∧
    n = n' + sectorsNeeded m.hdr data.length := by
  obtain ⟨-, h2, h3, -⟩ := C06_allocation hm hc hnew hslot hne hw
  have hm' : ∃ ds', Mounted m' ds' := by
    by_cases hk : (pieces m.hdr data).length ≤ (freePool m.hdr m.bytes).length
    · obtain ⟨m1, ds1, L1, L2, order, e, h1, h2, -⟩ := mounted_write hm hne hc.2 hslot (by rw [hc.1]; exact hnew) hk
      rw [h1] at hw; injection hw with _ hw; subst hw
      exact ⟨ds1, h2⟩
    · rw [needed_eq hm] at hk
      omega
  obtain ⟨ds', hm'⟩ := hm'
  obtain ⟨L, a1, a2⟩ := free_number hm segs
  obtain ⟨L', b1, b2⟩ := free_number hm' segs'
  refine ⟨L, L', _, _, a1, b1, a2, b2, ?_⟩
  rw [h3, List.length_drop]
  omega

/-! ### DOS 3.3 -/

/-- **C104, DOS 3.3.** For a disk that opens `vtoc` prints a line for each of 35 tracks of 16 sectors, with a 1 for every free sector, and the number of all
bits that are set in the VTOC.  It fails if the disk is too small, by its own figures, to have a VTOC. -/
theorem C104_dos33 {b : Bytes} {m : DImg} (hm : DImg.open b = .ok m) (segs : List ISeg) :
    (272 < m.maxSectors → ∃ L, (Image.dos33 m segs).vtocText = .ok L ∧ L.length = 36 ∧ linesOf (stdout L) = L ∧ ShowsTracks 0 35 16 (IsFree33 b) L ∧
      L[35]?.bind readFree = some (freePool33 b).length) ∧
    (m.maxSectors ≤ 272 → (Image.dos33 m segs).vtocText = .error .nameError) := by
  obtain ⟨hb, hmb, -⟩ := open33_ok hm
  constructor
  · intro h272
    have hmap : m.getVtocMap = .ok (vtocMap33 (sec33 b 272)) := by
      unfold DImg.getVtocMap getSec33
      rw [if_pos h272, hmb]
    have hl := length_vtocMap33 (sec33 b 272)
    obtain ⟨k1, k2, k3, k4⟩ := C104_lines 0 35 (per := 16) (by omega) (map := vtocMap33 (sec33 b 272)) (by omega)
    refine ⟨_, by show m.getVtocMap.map _ = _; rw [hmap]; rfl, k1, C87_lines _ k4, ?_, ?_⟩
    · intro t ht
      obtain ⟨l, f, a1, a2, a3, a4⟩ := k2 t ht
      exact ⟨l, f, a1, a2, a3, fun j hj => (a4 j hj).trans (isFree33_iff hb _).symm⟩
    · rw [k3, count_free (n := 800) (by omega) (fun s => (isFree33_iff hb s).symm) (fun s h => h.1)]
      rfl
  · intro h272
    show m.getVtocMap.map _ = _
    unfold DImg.getVtocMap getSec33
    rw [if_neg (by omega)]
    rfl

/-- **C104, refuted: the number.** Bits for tracks 35 to 49 are counted, though there are no such tracks. -/
theorem C104_refuted_tracks {b : Bytes} {m : DImg} (hm : DImg.open b = .ok m) (h272 : 272 < m.maxSectors) (segs : List ISeg) : ∃ L,
    (Image.dos33 m segs).vtocText = .ok L ∧ ShowsTracks 0 35 16 (IsFree33 b) L ∧ L[35]?.bind readFree =
      some (((List.range 560).filter fun s => decide (IsFree33 b s)).length + ((List.range' 560 240).filter fun s => decide (IsFree33 b s)).length) := by
  obtain ⟨L, h1, -, -, h2, h3⟩ := (C104_dos33 hm segs).1 h272
  refine ⟨L, h1, h2, ?_⟩
  rw [h3]
  unfold freePool33
  rw [show (800 : Nat) = 560 + 240 from rfl, List.range_eq_range', List.range_eq_range', ← List.range'_append_1, List.filter_append, List.length_append, Nat.zero_add]

/-! ### SpartaDOS -/

/-- **C104, refuted: SpartaDOS.** The figure shown for a sector is that of the sector 80 behind it. -/
theorem C104_refuted_sparta {b : Bytes} {m : SImg} (hm : SImg.open b = .ok m) (hs : 33 ≤ m.hdr.sectorSize) (hmax : m.hdr.maxSectors < 1280)
    (hb : BitmapOk m.hdr b) (segs : List ISeg) : ∃ L, (Image.sparta m segs).vtocText = .ok L ∧ L.length = 41 ∧
    ShowsTracks 1 40 18 (fun s => s < 720 ∧ SpartaFree m.hdr b (s + 80)) L := by
  obtain ⟨ho, rfl⟩ := open_sparta hm
  have g := openHeader_geom ho
  obtain ⟨map, h1, h2, h3⟩ := sparta_vtocMap g hs hmax hb
  obtain ⟨k1, k2, k3, k4⟩ := C104_lines 1 40 (per := 18) (by omega) (map := map) (by omega)
  refine ⟨_, by show m.vtocMap.map _ = _; rw [h1, g.label]; rfl, k1, ?_⟩
  intro t ht
  obtain ⟨l, f, a1, a2, a3, a4⟩ := k2 t ht
  exact ⟨l, f, a1, a2, a3, fun j hj => (a4 j hj).trans (h3 _)⟩

/-! ### the command -/

/-- **C104, the command.** `vtoc` succeeds exactly if there is something to print; without `-e` it changes nothing. -/
theorem C104_command (W : World) (dry : Bool) (name : Bytes) (i : Image) (h : Host) :
    (Command.vtoc false).onImage W dry name i h = ((i.vtocText.map fun _ => ()).mapError CErr.py, h) := by
  have e : i.vtoc = i.vtocText.map fun _ => () := by
    cases i with
    | atari m s => show m.getVtocObject.map _ = (m.getVtocObject.map _).map _; cases m.getVtocObject <;> rfl
    | dos33 m s => show m.getVtocMap.map _ = (m.getVtocMap.map _).map _; cases m.getVtocMap <;> rfl
    | sparta m s => show m.vtocMap.map _ = (m.vtocMap.map _).map _; cases m.vtocMap <;> rfl
    | _ => rfl
  unfold Command.onImage
  rw [e]
  cases i.vtocText <;> rfl

/-! ### cases -/

/-- an empty single density disk has 707 free sectors, and the first three of track 0 are in use -/
example : ∃ L, (Image.atari (mountRec sdH sdDisk []) []).vtocText = .ok L ∧ L[40]?.bind readFree = some 707 := by
  obtain ⟨L, h1, h2⟩ := free_number mounted_sd []
  exact ⟨L, h1, by rw [h2]; exact congrArg some sdDisk_pool⟩

/-- an empty disk whose bitmap offers sector 0 only -/
def offersZero (s : Nat) : Bytes :=
  if s = 359 then sec128 [2, 0xc3, 2, 1, 0, 0, 0, 0, 0, 0, 0x80] else List.replicate 128 0

/-- no sector is shown as free, but one is counted -/
example : ∃ b m L, AImg.open b = .ok m ∧ (Image.atari m []).vtocText = .ok L ∧ ShowsTracks 1 40 18 (fun _ => False) L ∧ L[40]?.bind readFree = some 1 := by
  have hl : ∀ s, (offersZero s).length = 128 := by
    intro s
    unfold offersZero sec128
    split <;> simp
  obtain ⟨b, hbl, ho, hs⟩ := xfd_of hl (by decide +kernel)
  obtain ⟨m, hm, hh⟩ := xfd_open ho hs (by decide +kernel) (.stop (by decide +kernel) (by decide +kernel))
  have hf : ∀ s, AtariFree m.hdr b s ↔ s = 0 := by
    intro s
    unfold AtariFree
    rw [hh, hs 360 (by omega) (by omega)]
    by_cases h : s < 720
    · revert s
      decide +kernel
    · omega
  obtain ⟨L, h1, h2, h3⟩ := C104_refuted_zero hm (by rw [hh]; decide) [] ((hf 0).mpr rfl)
  refine ⟨b, m, L, hm, h1, fun t ht => ?_, ?_⟩
  · obtain ⟨l, f, a1, a2, a3, a4⟩ := h2 t ht
    refine ⟨l, f, a1, a2, a3, fun j hj => (a4 j hj).trans ((hf _).trans ⟨fun h => by omega, False.elim⟩)⟩
  · rw [h3, List.filter_eq_nil_iff.mpr]
    · rfl
    · intro s hs hc
      have := (hf s).mp (of_decide_eq_true hc)
      have := List.mem_range'_1.mp hs
      omega

/-- an empty DOS 3.3 disk with a bit set for track 40 -/
def lateSec (s : Nat) : Bytes := if s = 272 then splice vtocBlank33 (0x38 + 4 * 40) [0x80] else List.replicate 256 0

theorem lateSec_length (s : Nat) : (lateSec s).length = 256 := by
  unfold lateSec
  split
  · rw [length_splice _ _ _ (by rw [vtocBlank33_length]; decide)]; exact vtocBlank33_length
  · exact List.length_replicate

/-- the sector is counted -/
example : ∃ b m L n, DImg.open b = .ok m ∧ IsFree33 b 655 ∧ (Image.dos33 m []).vtocText = .ok L ∧ ShowsTracks 0 35 16 (IsFree33 b) L ∧
    L[35]?.bind readFree = some (((List.range 560).filter fun s => decide (IsFree33 b s)).length + n) ∧ 0 < n := by
  obtain ⟨b, hb⟩ : ∃ b, b = imgOf33 lateSec := ⟨_, rfl⟩
  have hlen : b.length = 143360 := by rw [hb]; exact imgOf33_length lateSec_length
  have hsec : ∀ s, s < 560 → sec33 b s = lateSec s := fun s h => by rw [hb]; exact sec33_flatMap lateSec_length h
  clear hb
  have hbyte : ∀ s i, s < 560 → i < 256 → secByte33 b s i = ((lateSec s).getD i 0).toNat := by
    intro s i hs hi
    unfold secByte33
    rw [← getD_sec33 hi, hsec s hs]
  have h2 : pairAt33 b 272 1 = 287 := by
    unfold pairAt33
    rw [hbyte _ _ (by omega) (by omega), hbyte _ _ (by omega) (by omega)]; decide +kernel
  have h3 : sectors33 b = 560 := by
    unfold sectors33
    rw [hbyte _ _ (by omega) (by omega), hbyte _ _ (by omega) (by omega)]; decide +kernel
  have hv : Volume33 b [287] := by
    refine ⟨hlen, ⟨?_, fun _ => ?_⟩, by rw [h2, h3]; omega, ?_, ?_⟩
    · have h : b.take 4 = (lateSec 0).take 4 := by
        rw [← hsec 0 (by omega)]
        simp [sec33, slice, List.take_take]
      rw [h]
      decide +kernel
    · rw [hbyte _ _ (by omega) (by omega), hbyte _ _ (by omega) (by omega)]; decide +kernel
    · rw [h2, h3]
      refine .next (by omega) (by omega) (by omega) ?_
      unfold pairAt33
      rw [hbyte _ _ (by omega) (by omega), hbyte _ _ (by omega) (by omega),
        show 16 * ((lateSec 287).getD 1 0).toNat + ((lateSec 287).getD (1 + 1) 0).toNat = 0 by decide +kernel]
      exact .done
    · intro p hp
      have h0 : seenEntries33 b 287 = [] := by
        rw [seenEntries33_eq, hsec 287 (by omega)]
        decide +kernel
      rw [List.flatMap_cons, List.flatMap_nil, List.append_nil, h0] at hp
      cases hp
  obtain ⟨m, hm⟩ := C77_volume hv
  obtain ⟨_, _, _, _, h, _⟩ := C77_opens _ _ hm
  have hfree : IsFree33 b 655 := by
    unfold IsFree33
    rw [hsec 272 (by omega)]
    decide +kernel
  obtain ⟨L, a1, a2, a3⟩ := C104_refuted_tracks hm (by rw [h, h3]; omega) []
  exact ⟨b, m, L, _, hm, hfree, a1, a2, a3, List.length_pos_iff.mpr fun hn =>
    List.filter_eq_nil_iff.mp hn 655 (by rw [List.mem_range'_1]; omega) (decide_eq_true hfree)⟩

/-- On this SpartaDOS disk only sector 86 is free, but sector 6, which holds a file, is shown as free. -/
example : ∃ m L l f, SImg.open shredDisk = .ok m ∧ ¬ SpartaFree m.hdr shredDisk 6 ∧ (Image.sparta m []).vtocText = .ok L ∧ L[0]? = some l ∧
    readTrack l = some (0, f) ∧ f[5]? = some true := by
  have hf := shredFacts_true
  have ho : openHeader shredDisk = .ok shredHeader := by decide +kernel
  unfold shredFacts at hf
  split at hf
  · cases hf
  rename_i m hm
  obtain ⟨e1, e2⟩ := open_sparta hm
  rw [ho] at e1
  injection e1 with e1
  have hbm : spartaBitmap shredHeader shredDisk = List.replicate 10 0 ++ 2 :: List.replicate 117 0 := by decide +kernel
  obtain ⟨L, h1, h2, h3⟩ := C104_refuted_sparta hm (by rw [← e1]; decide) (by rw [← e1]; decide) (by rw [← e1]; unfold BitmapOk; decide +kernel) []
  obtain ⟨l, f, a1, a2, a3, a4⟩ := h3 0 (by omega)
  refine ⟨m, L, l, f, hm, ?_, h1, a1, a2, (a4 5 (by omega)).mpr ⟨by omega, ?_⟩⟩
  · rw [← e1]
    unfold SpartaFree
    rw [hbm]
    decide +kernel
  · rw [← e1]
    unfold SpartaFree
    rw [hbm]
    decide +kernel

end Atr
