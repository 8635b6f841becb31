import Verif.Props.Verbose
import Verif.Props.SegLinesMore
import Verif.Props.BRun
/-!
# C123 for DOS 3.3, C124: the addresses shown for a program on a DOS 3.3 disk are those it is loaded to
-/
namespace Atr

theorem readVerboseName33_ok (name : List Char) (num first : Nat) (lock kind : Char) :
    readVerboseName33 (name ++ " (".toList ++ pctD num ++ " sectors, first@".toList ++ pctD first ++ ") ".toList ++ [lock, kind]) =
      some (name, num, first, lock, kind) := by
  unfold readVerboseName33
  have h1 : ((name ++ " (".toList ++ pctD num ++ " sectors, first@".toList ++ pctD first ++ ") ".toList ++ [lock, kind]).reverse.take 2).reverse = [lock, kind] := by
    rw [List.reverse_append]; rfl
  have h2 : ((name ++ " (".toList ++ pctD num ++ " sectors, first@".toList ++ pctD first ++ ") ".toList ++ [lock, kind]).reverse.drop 2).reverse =
      name ++ " (".toList ++ pctD num ++ " sectors, first@".toList ++ pctD first ++ ") ".toList := by
    rw [List.reverse_append]
    show (List.reverse _).reverse = _
    rw [List.reverse_reverse]
  rw [h1, h2]
  simp only
  rw [endsIn_append]
  simp only [Option.bind_eq_bind, Option.bind_some]
  rw [lastDec_pctD _ (by rw [show " sectors, first@".toList = " sectors, first".toList ++ ['@'] from rfl, ← List.append_assoc]; exact noLast_snoc (by decide))]
  simp only [Option.bind_some]
  rw [endsIn_append]
  simp only [Option.bind_some]
  rw [lastDec_pctD _ (by rw [show " (".toList = " ".toList ++ ['('] from rfl, ← List.append_assoc]; exact noLast_snoc (by decide))]
  simp only [Option.bind_some]
  rw [endsIn_append]
  rfl

/-- **C123, files of DOS 3.3 disks.** On a consistent disk every file of the listing is described with its name, its number of sectors, its first sector, where its first
byte is, lock and type, the number of its bytes and an address range, which begins four bytes before the address in the file for type B and at 0 for others. -/
theorem C123_dos33 {m : DImg} {cs ds} (hm : Mounted33 m cs ds) (say : Err → Text) {d : DDirent} (hd : d ∈ m.files) :
    ∃ s t vn data first start, d.verboseSeg say m.maxSectors m.bytes = .ok s ∧ s.info = .ok t ∧
      readVerbose t = some (.placed vn start (start + data.length) data.length 0) ∧
      readVerboseName33 vn = some (latin1 d.filename, d.numSectors, first, (if d.locked then '*' else ' '), kindOf33 d.ftype) ∧
      (d.filename, d.ftype, Except.ok data) ∈ m.listing ∧ data ≠ [] ∧ m.bytes[256 * first]? = data[0]? ∧ UserSec33 cs first ∧ ¬ IsFree33 m.bytes first ∧
      start = if d.ftype = 4 then (wordAt data 0 : Int) - 4 else 0 := by
  obtain ⟨c, e⟩ := mounted33_iff.mp hm
  have hmax : m.maxSectors = 560 := by rw [e]; rfl
  have hd' := hd
  rw [e] at hd'
  obtain ⟨hd1, hd2⟩ := List.mem_filter.mp (show d ∈ ds.filter (fun d => !d.deleted) from hd')
  have hl : d.deleted = false := by simpa using hd2
  have hsz := c.size
  obtain ⟨ts, map, f1, f2, f3, f4, f5⟩ := c.contents hd1 hl
  have ht := f1.tsMap hsz f2
  obtain ⟨s0, r, hr⟩ := List.exists_cons_of_ne_nil f2
  have hs : s0 ∈ map := by rw [hr]; exact List.mem_cons_self
  have hu := f4 s0 (by simp [hs])
  have hl0 := length_sec33 hsz (s := s0) hu.1.2.1
  have hne : (map.flatMap fun s => slice m.bytes (256 * s) (256 * s + 256)) ≠ [] := by
    intro hc
    have : ∀ s ∈ map, (slice m.bytes (256 * s) (256 * s + 256)) = [] := List.flatMap_eq_nil_iff.mp hc
    rw [sec33, this s0 hs] at hl0
    cases hl0
  have h0 : m.bytes[256 * s0]? = (map.flatMap (sec33 m.bytes))[0]? := by
    rw [hr, List.flatMap_cons, List.getElem?_append_left (by omega)]
    unfold sec33 slice
    rw [List.getElem?_drop, List.getElem?_take_of_lt (by omega)]
    rfl
  have hdne : map.flatMap (sec33 m.bytes) ≠ [] := hne
  have hhead : map.headD 0 = s0 := by rw [hr]; rfl
  generalize map.flatMap (sec33 m.bytes) = data at f5 h0 hdne
  have hsum : d.summary = [if d.locked then '*' else ' ', kindOf33 d.ftype] := by
    unfold DDirent.summary
    rw [hl, typeToText33_eq]
    rfl
  have hty : (if typeToText33 d.ftype = 'B' then (le16 (data.getD 0 0) (data.getD 1 0) : Int) - 4 else 0) = if d.ftype = 4 then (wordAt data 0 : Int) - 4 else 0 := by
    by_cases h4 : d.ftype = 4
    · rw [if_pos h4, if_pos ((typeToText33_B _).mpr h4)]
      rfl
    · rw [if_neg h4, if_neg (fun hc => h4 ((typeToText33_B _).mp hc))]
  refine ⟨⟨d.summary ++ " ".toList ++ pctZero 3 d.numSectors ++ " ".toList ++ latin1 d.filename,
      latin1 d.filename ++ " (".toList ++ pctD d.numSectors ++ " sectors, first@".toList ++ pctD s0 ++ ") ".toList ++ d.summary, [],
      .obj (if d.ftype = 4 then (wordAt data 0 : Int) - 4 else 0) data.length 0⟩, _,
    latin1 d.filename ++ " (".toList ++ pctD d.numSectors ++ " sectors, first@".toList ++ pctD s0 ++ ") ".toList ++ d.summary, data, s0,
    if d.ftype = 4 then (wordAt data 0 : Int) - 4 else 0, ?_, ?_, readVerbose_placed _ _ _ 0, ?_, ?_, hdne, h0, hu.1, hu.2, rfl⟩
  · unfold DDirent.verboseSeg
    rw [hmax, f5, ht]
    simp only
    rw [if_neg hne, hhead, hty]
  · have hne : latin1 d.filename ++ " (".toList ++ pctD d.numSectors ++ " sectors, first@".toList ++ pctD s0 ++ ") ".toList ++ d.summary ≠ [] := by simp
    unfold VSeg.info VSeg.body VSeg.title
    simp only [if_neg hne, if_true]
  · rw [hsum]
    exact readVerboseName33_ok ..
  · refine List.mem_map.mpr ⟨d, hd, ?_⟩
    rw [hmax, f5]

/-- **C124 (partial).** The description of a file of type B that was added with an address, the length and so many bytes begins four addresses before the address, so that
every byte of the program is shown at the address where `BRUN` puts it, and the program is started at the first of them.  The range ends where the last sector ends. -/
theorem C124_partial {m m' : DImg} {cs ds} {n : Nat} {name body : Bytes} {start : Nat} (hm : Mounted33 m cs ds) (pd : PlainDisk33 m.bytes cs n)
    (hc : norm33 name = name) (ha : ∀ c ∈ name, c < 0x80) (hnew : name ∉ m.names) (hs : start < 65536) (hb : body.length < 65536)
    (hw : DImg.writeFile name 4 (enc16 start ++ enc16 body.length ++ body) m = (.ok (), m')) {mem mem' : Nat → UInt8} {pc : Nat}
    (hr : BRuns m'.bytes cs (dosName33 name) mem mem' pc) (say : Err → Text) {d : DDirent} (hd : d ∈ m'.files) (hdn : d.filename = name) :
    ∃ s t vn data, ∃ origin stop : Int, d.verboseSeg say m'.maxSectors m'.bytes = .ok s ∧ s.info = .ok t ∧
      readVerbose t = some (.placed vn origin stop data.length 0) ∧ (name, 4, Except.ok data) ∈ m'.listing ∧ pc = start ∧ origin + 4 = pc ∧
      (∀ (i : Nat) (a : Nat), (a : Int) = origin + i → pc ≤ a → a < pc + body.length → data[i]? = some (mem' (a % 65536))) ∧
      pc + body.length ≤ stop ∧ stop < pc + body.length + 256 ∧ (stop = pc + body.length ↔ (body.length + 4) % 256 = 0) := by
  have hl : body.length + 4 ≤ 31232 := Nat.le_of_not_lt fun h => brun_long hm pd hc ha hnew h hb hw mem mem' pc hr
  obtain ⟨hpc, hmem⟩ := C116_unique hr (brun_added hm pd hc ha hnew hs hl hw mem)
  obtain ⟨ds', L1, L2, k1, _, k3, _⟩ := write33_ok hm (by omega) (by omega) (by rw [hc]; exact hnew) hw
  obtain ⟨s, t, vn, data, first, o, h1, h2, h3, _, h5, _, _, _, _, ho⟩ := C123_dos33 k1 say hd
  have hin : (name, 4, Except.ok (padded33 (enc16 start ++ enc16 body.length ++ body))) ∈ m'.listing := by
    rw [k3, hc]; simp
  rw [hdn] at h5
  have hnd := mounted33_nodup k1
  have hdata : data = padded33 (enc16 start ++ enc16 body.length ++ body) :=
    Except.ok.inj ((find33_of_listing hnd h5).symm.trans (find33_of_listing hnd hin))
  have hft : d.ftype = 4 := by
    obtain ⟨d', hd', he⟩ := List.mem_map.mp hin
    have : d' = d := nodup_same hnd hd' hd ((congrArg (·.1) he).trans hdn.symm)
    rw [← this]
    exact congrArg (·.2.1) he
  rw [hft] at h5
  rw [if_pos hft] at ho
  have hx := bsave_length start body
  have hword : wordAt data 0 = start := by
    rw [hdata]
    exact word_enc hs
  have hlen : data.length = body.length + 4 + (256 - (body.length + 4) % 256) % 256 := by
    rw [hdata]
    unfold padded33
    rw [List.length_append, List.length_replicate, hx]
  rw [hword] at ho
  refine ⟨s, t, vn, data, o, o + data.length, h1, h2, h3, h5, hpc, by omega, ?_, by omega, by omega, by omega⟩
  intro i a hia hle hlt
  obtain ⟨k, rfl⟩ : ∃ k, a = start + k := ⟨a - start, by omega⟩
  have hi : i = 4 + k := by omega
  have hk : k < body.length := by omega
  rw [hmem, loadAt_at hs hb hk, hi, hdata]
  unfold padded33
  rw [List.getElem?_append_left (by omega), List.getElem?_append_right (by show 4 ≤ _; omega)]
  show body[4 + k - 4]? = _
  rw [Nat.add_sub_cancel_left, List.getD_eq_getElem?_getD, List.getElem?_eq_getElem hk]
  rfl

/-- a program of three bytes at $2000 on an empty disk: the range shown is $1ffc-$20fc -/
example (say : Err → Text) (mem : Nat → UInt8) : ∃ m' d s t vn mem', DImg.writeFile [0x54] 4 [0, 0x20, 3, 0, 0xa9, 1, 0x60] (mount33 blank33 []) = (.ok (), m') ∧
    d ∈ m'.files ∧ d.filename = [0x54] ∧ BRuns m'.bytes catBlank33 (dosName33 [0x54]) mem mem' 0x2000 ∧ mem' 0x2002 = 0x60 ∧
    d.verboseSeg say m'.maxSectors m'.bytes = .ok s ∧ s.info = .ok t ∧ readVerbose t = some (.placed vn 0x1ffc 0x20fc 256 0) := by
  have hm0 := mounted_blank33
  have hb0 : (mount33 blank33 []).bytes = blank33 := mount33_bytes _ _
  have hp0 := template33_pool blank33_template
  have hok := (C10_write_succeeds_iff (name := [0x54]) (data := [0, 0x20, 3, 0, 0xa9, 1, 0x60]) (ftype := 4) hm0 (by omega) (by omega)
    (fun hx => nomatch hx)).mpr ⟨by decide, by unfold Ascii33; decide, by decide, by rw [hb0, hp0]; decide⟩
  have pc0 : PlainCat33 (mount33 blank33 []).bytes catBlank33 0 := by rw [hb0]; exact plain_blank
  have hn0 : (mount33 blank33 []).names = [] := rfl
  clear hb0 hp0
  generalize mount33 blank33 [] = m at hm0 hok pc0 hn0 ⊢
  have pd0 : PlainDisk33 m.bytes catBlank33 0 :=
    ⟨pc0, by rw [pc0.seen]; exact (fun p hp => nomatch hp), by rw [pc0.seen]; exact (fun p hp => nomatch hp)⟩
  generalize hw : DImg.writeFile [0x54] 4 [0, 0x20, 3, 0, 0xa9, 1, 0x60] m = r at hok
  obtain ⟨r, m'⟩ := r
  have hok : r = .ok () := hok
  subst hok
  have hnew : ([0x54] : Bytes) ∉ m.names := by rw [hn0]; exact fun h => nomatch h
  have hw' : DImg.writeFile [0x54] 4 (enc16 0x2000 ++ enc16 ([0xa9, 1, 0x60] : Bytes).length ++ [0xa9, 1, 0x60]) m = (.ok (), m') := hw
  have hr := brun_added hm0 pd0 (by decide) (by decide) hnew (by decide) (by decide) hw' mem
  obtain ⟨p, d, _, _, hd, hdn, _⟩ := brun_bytes hm0 pd0 (by decide) (by decide) hnew hw
  obtain ⟨s, t, vn, data, o, stop, h1, h2, h3, h4, _, h5, _, h6, h7, h8⟩ := C124_partial hm0 pd0 (by decide) (by decide) hnew (by decide) (by decide) hw' hr say hd hdn
  obtain ⟨ds', L1, L2, k1, _, k3, _⟩ := write33_ok hm0 (by omega) (by omega) (by rw [show norm33 [0x54] = [0x54] by decide]; exact hnew) hw
  have hdata : data = padded33 [0, 0x20, 3, 0, 0xa9, 1, 0x60] :=
    Except.ok.inj ((find33_of_listing (mounted33_nodup k1) h4).symm.trans
      (find33_of_listing (t := 4) (mounted33_nodup k1) (by rw [k3, show norm33 [0x54] = [0x54] by decide]; simp)))
  have hlen : data.length = 256 := by rw [hdata]; decide +kernel
  obtain ⟨s2, t2, vn2, data2, first, o2, g1, g2, g3, _⟩ := C123_dos33 k1 say hd
  rw [h1] at g1
  cases g1
  rw [h2] at g2
  cases g2
  rw [h3] at g3
  injection g3 with g3
  injection g3 with _ e1 e2 e3
  have ho : o = 0x1ffc := by omega
  have hst : stop = 0x20fc := by rw [e2, ← e1, ho, ← e3, hlen]; rfl
  rw [ho, hst, hlen] at h3
  exact ⟨m', d, s, t, vn, _, rfl, hd, hdn, hr, loadAt_at (start := 0x2000) (k := 2) (by decide) (by decide) (by decide), h1, h2, h3⟩

end Atr
