import Verif.Model.Verbose
import Verif.Spec.Verbose
import Verif.Props.SegLines
import Verif.Props.Metadata
/-!
# C123: the long descriptions of segments
-/
namespace Atr

theorem lastHex_none {t : List Char} {c : Char} (h : isHexDigit c = false) : lastHex (t ++ [c]) = none := by
  unfold lastHex lastNumber
  rw [List.reverse_append]
  simp only [List.reverse_singleton, List.singleton_append]
  rw [List.takeWhile_cons_of_neg (by simp [h])]
  rfl

theorem noLast_dollar (t q : List Char) (h : q.getLast? = some '$') : NoLast isHexDigit (t ++ q) := fun c hc => by
  rw [List.getLast?_append, h] at hc
  rw [← Option.some.inj hc]; rfl

theorem readVerbose_scattered (name : List Char) (n pos : Nat) :
    readVerbose (name ++ " ($".toList ++ pctX 4 n ++ " bytes) non-contiguous file; file index of first byte: $".toList ++ pctX 4 pos) = some (.scattered name n pos) := by
  have : readScattered (name ++ " ($".toList ++ pctX 4 n ++ " bytes) non-contiguous file; file index of first byte: $".toList ++ pctX 4 pos) =
      some (.scattered name n pos) := by
    unfold readScattered
    rw [lastHex_pctX 4 pos (noLast_dollar _ " bytes) non-contiguous file; file index of first byte: $".toList (by decide))]
    simp only [Option.bind_eq_bind, Option.bind_some]
    rw [endsIn_append]
    simp only [Option.bind_some]
    rw [lastHex_pctX 4 n (noLast_dollar _ " ($".toList (by decide))]
    simp only [Option.bind_some]
    rw [endsIn_append]
    rfl
  unfold readVerbose
  rw [this]
  rfl

theorem readVerbose_placed (name : List Char) (origin : Int) (n pos : Nat) :
    readVerbose (name ++ "  address range: $".toList ++ pctX 4 origin ++ "-$".toList ++ pctX 4 (origin + n) ++ " ($".toList ++ pctX 4 n ++
      " bytes), file index of first byte: $".toList ++ pctX 4 pos) = some (.placed name origin (origin + n) n pos) := by
  have e : name ++ "  address range: $".toList ++ pctX 4 origin ++ "-$".toList ++ pctX 4 (origin + n) ++ " ($".toList ++ pctX 4 n ++
      " bytes), file index of first byte: $".toList ++ pctX 4 pos =
      (((name ++ "  address range: ".toList ++ '$' :: pctX 4 origin) ++ "-".toList ++ '$' :: pctX 4 (origin + n)) ++ " ($".toList ++ pctX 4 n) ++
      " bytes), file index of first byte: $".toList ++ pctX 4 pos := by simp
  rw [e]
  generalize hx : name ++ "  address range: ".toList ++ '$' :: pctX 4 origin = x
  have h1 : readScattered ((x ++ "-".toList ++ '$' :: pctX 4 (origin + n)) ++ " ($".toList ++ pctX 4 n ++ " bytes), file index of first byte: $".toList ++ pctX 4 pos) = none := by
    unfold readScattered
    rw [lastHex_pctX 4 pos (noLast_dollar _ " bytes), file index of first byte: $".toList (by decide))]
    simp only [Option.bind_eq_bind, Option.bind_some]
    rw [show (x ++ "-".toList ++ '$' :: pctX 4 (origin + n)) ++ " ($".toList ++ pctX 4 n ++ " bytes), file index of first byte: $".toList =
        ((x ++ "-".toList ++ '$' :: pctX 4 (origin + n)) ++ " ($".toList ++ pctX 4 n ++ " bytes)".toList) ++ ", file index of first byte: $".toList by simp,
      show " bytes) non-contiguous file; file index of first byte: $".toList = " bytes) non-contiguous file".toList ++ "; file index of first byte: $".toList from rfl,
      endsIn_differ _ _ (by decide) (by decide)]
    rfl
  have h2 : readRange ((x ++ "-".toList ++ '$' :: pctX 4 (origin + n)) ++ " ($".toList ++ pctX 4 n ++ " bytes), file index of first byte: $".toList ++ pctX 4 pos) =
      some (.placed name origin (origin + n) n pos) := by
    unfold readRange
    rw [lastHex_pctX 4 pos (noLast_dollar _ " bytes), file index of first byte: $".toList (by decide))]
    simp only [Option.bind_eq_bind, Option.bind_some]
    rw [endsIn_append]
    simp only [Option.bind_some]
    rw [lastHex_pctX 4 n (noLast_dollar _ " ($".toList (by decide))]
    simp only [Option.bind_some]
    rw [endsIn_append]
    simp only [Option.bind_some]
    rw [lastAddress_pctX]
    simp only [Option.bind_some]
    rw [endsIn_append]
    simp only [Option.bind_some]
    rw [← hx, lastAddress_pctX]
    simp only [Option.bind_some]
    rw [endsIn_append]
    rfl
  unfold readVerbose
  rw [h1, h2]
  rfl

/-- a text that does not end in a hexadecimal digit has no position at its end -/
theorem readVerbose_noHex {t : List Char} {c : Char} (h : isHexDigit c = false) : readVerbose (t ++ [c]) = (readCount (t ++ [c])).or (readSectorRow (t ++ [c])) := by
  have h1 : readScattered (t ++ [c]) = none := by unfold readScattered; rw [lastHex_none h]; rfl
  have h2 : readRange (t ++ [c]) = none := by unfold readRange; rw [lastHex_none h]; rfl
  unfold readVerbose
  rw [h1, h2]
  rfl

theorem readVerbose_bytes (name : List Char) (n : Nat) : readVerbose (name ++ " ($".toList ++ pctX 4 n ++ " bytes)".toList) = some (.bytes name n) := by
  have h : readBytes (name ++ " ($".toList ++ pctX 4 n ++ " bytes)".toList) = some (.bytes name n) := by
    unfold readBytes
    rw [endsIn_append]
    simp only [Option.bind_eq_bind, Option.bind_some]
    rw [lastHex_pctX 4 n (noLast_dollar _ " ($".toList (by decide))]
    simp only [Option.bind_some]
    rw [endsIn_append]
    rfl
  have hc : readCount (name ++ " ($".toList ++ pctX 4 n ++ " bytes)".toList) = some (.bytes name n) := by
    unfold readCount
    rw [h]
  have := readVerbose_noHex (t := name ++ " ($".toList ++ pctX 4 n ++ " bytes".toList) (c := ')') (by decide)
  rw [show name ++ " ($".toList ++ pctX 4 n ++ " bytes".toList ++ [')'] = name ++ " ($".toList ++ pctX 4 n ++ " bytes)".toList by simp, hc] at this
  exact this

theorem readVerbose_nothing (name : List Char) : readVerbose (name ++ " (empty file)".toList) = some (.nothing name) := by
  have h1 : readBytes (name ++ " (empty file)".toList) = none := by
    unfold readBytes
    rw [show " bytes)".toList = " byte".toList ++ ['s', ')'] from rfl,
      show name ++ " (empty file)".toList = (name ++ " (empty fil".toList) ++ ['e', ')'] by simp,
      endsIn_differ _ _ (q := ['s', ')']) (q' := ['e', ')']) rfl (by decide)]
    rfl
  have hc : readCount (name ++ " (empty file)".toList) = some (.nothing name) := by
    unfold readCount readNothing
    rw [h1, endsIn_append]
    rfl
  have := readVerbose_noHex (t := name ++ " (empty file".toList) (c := ')') (by decide)
  rw [show name ++ " (empty file".toList ++ [')'] = name ++ " (empty file)".toList by simp, hc] at this
  exact this

theorem readSectors_line (name : List Char) (first num : Nat) :
    readSectors (if num > 1 then name ++ " (sectors ".toList ++ pctD first ++ "-".toList ++ pctD (first + num - 1 : Nat) ++ ")".toList
      else name ++ " (sector ".toList ++ pctD first ++ ")".toList) = some (.sectors name first (first + (num - 1))) := by
  unfold readSectors
  by_cases hn : num > 1
  · rw [if_pos hn, endsIn_append]
    simp only [Option.bind_eq_bind, Option.bind_some]
    rw [lastDec_pctD _ (by exact noLast_snoc (by decide))]
    simp only [Option.bind_some]
    rw [show endsIn " (sector ".toList (name ++ " (sectors ".toList ++ pctD first ++ "-".toList) = none from
      endsIn_differ " (sector".toList _ (q := [' ']) (q' := ['-']) rfl (by decide)]
    simp only
    rw [endsIn_append]
    simp only [Option.bind_some]
    rw [lastDec_pctD _ (by rw [show " (sectors ".toList = " (sectors".toList ++ [' '] from rfl, ← List.append_assoc]; exact noLast_snoc (by decide))]
    simp only [Option.bind_some]
    rw [endsIn_append, show first + num - 1 = first + (num - 1) by omega]
    rfl
  · rw [if_neg hn, endsIn_append]
    simp only [Option.bind_eq_bind, Option.bind_some]
    rw [lastDec_pctD _ (by rw [show " (sector ".toList = " (sector".toList ++ [' '] from rfl, ← List.append_assoc]; exact noLast_snoc (by decide))]
    simp only [Option.bind_some]
    rw [endsIn_append, show num - 1 = 0 by omega]
    rfl

theorem readVerbose_sectors (name : List Char) (first num n : Nat) :
    readVerbose ((if num > 1 then name ++ " (sectors ".toList ++ pctD first ++ "-".toList ++ pctD (first + num - 1 : Nat) ++ ")".toList
      else name ++ " (sector ".toList ++ pctD first ++ ")".toList) ++ " $".toList ++ pctX 0 n ++ " bytes".toList) =
      some (.sectors name first (first + (num - 1)) n) := by
  have hs := readSectors_line name first num
  generalize (if num > 1 then name ++ " (sectors ".toList ++ pctD first ++ "-".toList ++ pctD (first + num - 1 : Nat) ++ ")".toList
      else name ++ " (sector ".toList ++ pctD first ++ ")".toList) = x at hs ⊢
  have e : x ++ " $".toList ++ pctX 0 n ++ " bytes".toList = (x ++ " $".toList ++ pctX 0 n ++ " byte".toList) ++ ['s'] := by simp
  have h1 : readBytes (x ++ " $".toList ++ pctX 0 n ++ " bytes".toList) = none := by
    unfold readBytes
    rw [e, show " bytes)".toList = " bytes".toList ++ [')'] from rfl, endsIn_differ _ _ (q := [')']) (q' := ['s']) rfl (by decide)]
    rfl
  have h2 : readNothing (x ++ " $".toList ++ pctX 0 n ++ " bytes".toList) = none := by
    unfold readNothing
    rw [e, show " (empty file)".toList = " (empty file".toList ++ [')'] from rfl, endsIn_differ _ _ (q := [')']) (q' := ['s']) rfl (by decide)]
    rfl
  have h3 : readCount (x ++ " $".toList ++ pctX 0 n ++ " bytes".toList) = none := by
    unfold readCount
    rw [h1, h2]
  have h4 : readSectorRow (x ++ " $".toList ++ pctX 0 n ++ " bytes".toList) = some (.sectors name first (first + (num - 1)) n) := by
    unfold readSectorRow
    rw [endsIn_append]
    simp only [Option.bind_eq_bind, Option.bind_some]
    rw [lastHex_pctX 0 n (noLast_dollar _ " $".toList (by decide))]
    simp only [Option.bind_some]
    rw [endsIn_append]
    simp only [Option.bind_some]
    rw [hs]
    rfl
  rw [e, readVerbose_noHex (by decide), ← e, h3, h4]
  rfl

/-- **C123, what a description says.** The description of a segment without an error says its verbose name, or its name if it has none, and: the number of its bytes; for
bytes picked from several places, the position of the first in the file; for a part of a program, its addresses and its position; for sectors, the first and the last.
Descriptions of files without bytes say the name. -/
theorem C123_said (name verbose : Text) :
    (∀ n, (VSeg.mk name verbose [] (.plain (.whole n))).info.toOption.bind readVerbose = some (.bytes (if verbose = [] then name else verbose) n)) ∧
    (∀ n off len, (VSeg.mk name verbose [] (.plain (.part n off len))).info.toOption.bind readVerbose = some (.bytes (if verbose = [] then name else verbose) len)) ∧
    (∀ n p idx, (VSeg.mk name verbose [] (.plain (.order n (p :: idx)))).info.toOption.bind readVerbose =
      some (.scattered (if verbose = [] then name else verbose) (idx.length + 1) p)) ∧
    (VSeg.mk name verbose [] .empty).info.toOption.bind readVerbose = some (.nothing name) ∧
    (∀ origin size pos, (VSeg.mk name verbose [] (.obj origin size pos)).info.toOption.bind readVerbose =
      some (.placed (if verbose = [] then name else verbose) origin (origin + size) size pos)) ∧
    ∀ first num size, (VSeg.mk name verbose [] (.sectors first num size)).info.toOption.bind readVerbose =
      some (.sectors (if verbose = [] then name else verbose) first (first + (num - 1)) size) := by
  refine ⟨fun n => ?_, fun n off len => ?_, fun n p idx => ?_, ?_, fun origin size pos => ?_, fun first num size => ?_⟩
  · exact readVerbose_bytes _ n
  · exact readVerbose_bytes _ len
  · exact readVerbose_scattered _ (idx.length + 1) p
  · exact readVerbose_nothing name
  · exact readVerbose_placed _ origin size pos
  · exact readVerbose_sectors _ first num size

/-- **C123 is false for segments that pick no bytes**: the only case in which there is no description, whatever the names and the error. -/
theorem C123_fails_iff (s : VSeg) (e : Err) : s.info = .error e ↔ e = .indexError ∧ ∃ n, s.kind = .plain (.order n []) := by
  obtain ⟨name, verbose, err, kind⟩ := s
  unfold VSeg.info VSeg.body
  cases kind with
  | plain v =>
    cases v with
    | whole n => exact ⟨fun h => (nomatch h), fun ⟨_, n, h⟩ => (nomatch h)⟩
    | part n off len => exact ⟨fun h => (nomatch h), fun ⟨_, n, h⟩ => (nomatch h)⟩
    | order n idx =>
      cases idx with
      | nil =>
        refine ⟨fun h => ?_, fun h => ?_⟩
        · injection h with h
          exact ⟨h.symm, n, rfl⟩
        · rw [h.1]
      | cons p idx => exact ⟨fun h => (nomatch h), fun ⟨_, n, h⟩ => (nomatch h)⟩
  | empty => exact ⟨fun h => (nomatch h), fun ⟨_, n, h⟩ => (nomatch h)⟩
  | obj o n p => exact ⟨fun h => (nomatch h), fun ⟨_, n, h⟩ => (nomatch h)⟩
  | sectors f n k => exact ⟨fun h => (nomatch h), fun ⟨_, n, h⟩ => (nomatch h)⟩

/-- **C123, errors.** An error without quotes can be read at the end, and what is before it is the description without the error. -/
theorem C123_error {name verbose err : Text} {kind : VKind} (he : err ≠ []) (hq : '\'' ∉ err) :
    (VSeg.mk name verbose err kind).info.toOption.bind readError = (VSeg.mk name verbose [] kind).info.toOption.map fun t => (t, err) := by
  have hb : (VSeg.mk name verbose err kind).body = (VSeg.mk name verbose [] kind).body := by
    cases kind with
    | plain v => cases v <;> rfl
    | empty => rfl
    | obj o n p => rfl
    | sectors f n k => rfl
  unfold VSeg.info
  rw [hb]
  cases (VSeg.mk name verbose [] kind).body with
  | error e => rfl
  | ok t =>
    simp only [if_neg he, if_true]
    show readError (t ++ "  error='".toList ++ err ++ "'".toList) = some (t, err)
    unfold readError
    rw [endsIn_append]
    simp only [Option.bind_eq_bind, Option.bind_some]
    have h := takeWhile_stop (p := (· != '\'')) (d := err.reverse) (t := (t ++ "  error='".toList).reverse)
      (fun c hc => by
        have : c ≠ '\'' := fun e => hq (e ▸ List.mem_reverse.mp hc)
        simpa using this)
      (fun c hc => by
        rw [List.head?_reverse, show t ++ "  error='".toList = (t ++ "  error=".toList) ++ ['\''] by simp, List.getLast?_concat] at hc
        rw [← Option.some.inj hc]; rfl)
    rw [List.reverse_append, h.1, h.2, List.reverse_reverse, List.reverse_reverse, endsIn_append]
    rfl

/-! ### files of Atari disks -/

theorem flags_closed : ∀ a1 a2 a3 a4 a5 a6 : Bool,
    (flagsText [(a1, "OUT".toList), (a2, "DOS2".toList), (a3, "MYDOS".toList), (a4, "IN_USE".toList), (a5, "DEL".toList), (a6, "LOCK".toList)]).all (· != ')') = true := by
  decide +kernel

theorem readVerboseName_ok (name : List Char) (num first : Nat) (d : ADirent) :
    readVerboseName (name ++ " (".toList ++ pctD num ++ " sectors, first@".toList ++ pctD first ++ ") ".toList ++ d.extra) =
      (readFlags d.extra).map fun f => (name, num, first, f) := by
  have hc : d.extra.all (· != ')') = true := flags_closed ..
  generalize d.extra = x at hc ⊢
  have e : name ++ " (".toList ++ pctD num ++ " sectors, first@".toList ++ pctD first ++ ") ".toList ++ x =
      (name ++ " (".toList ++ pctD num ++ " sectors, first@".toList ++ pctD first ++ [')']) ++ ([' '] ++ x) := by simp
  have h := takeWhile_stop (p := (· != ')')) (d := ([' '] ++ x).reverse)
    (t := (name ++ " (".toList ++ pctD num ++ " sectors, first@".toList ++ pctD first ++ [')']).reverse)
    (fun c hc' => by
      rcases List.mem_append.mp (List.mem_reverse.mp hc') with h | h
      · rw [List.mem_singleton.mp h]; rfl
      · exact List.all_eq_true.mp hc c h)
    (fun c hc => by
      rw [List.head?_reverse, List.getLast?_concat] at hc
      rw [← Option.some.inj hc]; rfl)
  unfold readVerboseName
  rw [e, List.reverse_append, h.1, h.2, List.reverse_reverse, List.reverse_reverse, expect_append]
  simp only [Option.bind_eq_bind, Option.bind_some]
  cases readFlags x with
  | none => rfl
  | some f =>
    simp only [Option.bind_some, Option.map_some]
    rw [show ")".toList = [')'] from rfl, endsIn_append]
    simp only [Option.bind_some]
    rw [lastDec_pctD _ (by rw [show " sectors, first@".toList = " sectors, first".toList ++ ['@'] from rfl, ← List.append_assoc]; exact noLast_snoc (by decide))]
    simp only [Option.bind_some]
    rw [endsIn_append]
    simp only [Option.bind_some]
    rw [lastDec_pctD _ (by rw [show " (".toList = " ".toList ++ ['('] from rfl, ← List.append_assoc]; exact noLast_snoc (by decide))]
    simp only [Option.bind_some]
    rw [endsIn_append]
    rfl

/-- the first byte is the first of a piece -/
theorem byteOrder_first {p : Nat} {idx : List Nat} : ∀ {l : List (Nat × Nat × Nat)}, byteOrder l = p :: idx → ∃ x ∈ l, x.2.1 = p
  | [], hp => by cases hp
  | x :: l, hp => by
    have hp' : List.range' x.2.1 x.2.2 ++ byteOrder l = p :: idx := hp
    cases hn : x.2.2 with
    | zero =>
      rw [hn] at hp'
      obtain ⟨y, hy, hy2⟩ := byteOrder_first (l := l) hp'
      exact ⟨y, List.mem_cons_of_mem _ hy, hy2⟩
    | succ k =>
      rw [hn, List.range'_succ] at hp'
      exact ⟨x, List.mem_cons_self, (List.cons.inj hp').1⟩

/-- **C123, files of Atari disks.** On a consistent disk every file of the listing is described with its name, its number of sectors, its first sector, its flags, the
number of its bytes, and the position of its first byte, which is the start of a sector in use. -/
theorem C123_atari {m : AImg} {ds} (hm : Mounted m ds) (say : Err → Text) {d : ADirent} (hd : d ∈ m.files) :
    ∃ s t vn flags data pos sector, d.verboseSeg say m.hdr m.bytes = .ok s ∧ s.info = .ok t ∧ readVerbose t = some (.scattered vn data.length pos) ∧
      readVerboseName vn = some (latin1 d.filename, d.numSectors, d.startingSector.toNat, flags) ∧ readFlags d.extra = some flags ∧
      (d.filename, Except.ok data) ∈ m.listing ∧ data ≠ [] ∧ m.bytes[pos]? = data[0]? ∧ UserSec m.hdr sector ∧ ¬ IsFree m.hdr m.bytes sector ∧
      pos = m.hdr.dpos sector := by
  obtain ⟨c, e⟩ := mounted_iff.mp hm
  have g := c.geom
  have hd' := hd
  rw [e] at hd'
  obtain ⟨hd1, hd2⟩ := mem_files.mp hd'
  obtain ⟨l, l1, l2, _, l4⟩ := c.chains d hd1 hd2
  obtain ⟨_, hst, hloop⟩ := readChain_ok l1
  have hpos := (readLoop_pos g _ _ _ hloop).2
  have hfit : ∀ x ∈ l, x.2.1 = m.hdr.dpos x.1 ∧ x.2.1 + x.2.2 ≤ m.bytes.length := by
    intro x hx
    have hds := (l4 x hx).1.data g
    have h1 := hpos x hx hds
    have h2 := hds.fit g
    have h3 := (l4 x hx).2.2
    exact ⟨h1, by omega⟩
  have hga := gather_flatMap m.bytes l fun x hx => (hfit x hx).2
  obtain ⟨p, idx, hp⟩ : ∃ p idx, byteOrder l = p :: idx := by
    cases hb : byteOrder l with
    | nil => exact absurd hb l2
    | cons p idx => exact ⟨p, idx, rfl⟩
  have hall : (byteOrder l).all (· < m.bytes.length) = true := by
    unfold gather at hga
    split at hga
    · assumption
    · cases hga
  obtain ⟨flags, hfl⟩ : ∃ flags, readFlags d.extra = some flags := ⟨_, atari_flags ..⟩
  have hview : (SegView.whole m.bytes.length).indexed (byteOrder l) = .ok (.order m.bytes.length (p :: idx)) := by
    unfold SegView.indexed
    simp only [hall, if_true]
    rw [hp]
    simp
  obtain ⟨x, hx, hxp⟩ := byteOrder_first hp
  have hget : d.getFile m.hdr m.bytes = .ok ((byteOrder l).map fun i => m.bytes.getD i 0) := by
    unfold ADirent.getFile
    rw [l1]
    simp only [if_neg l2]
    unfold gather
    rw [if_pos hall]
  have hlt : p < m.bytes.length := by
    have := List.all_eq_true.mp hall p (by rw [hp]; exact List.mem_cons_self)
    simpa using this
  obtain ⟨n0, hn0⟩ : ∃ n0 : Nat, d.startingSector = n0 := ⟨d.startingSector.toNat, by omega⟩
  refine ⟨⟨latin1 d.filename ++ " ".toList ++ pctD d.numSectors ++ "s@".toList ++ pctD d.startingSector,
      latin1 d.filename ++ " (".toList ++ pctD d.numSectors ++ " sectors, first@".toList ++ pctD d.startingSector ++ ") ".toList ++ d.extra, [],
      .plain (.order m.bytes.length (p :: idx))⟩, _,
    latin1 d.filename ++ " (".toList ++ pctD d.numSectors ++ " sectors, first@".toList ++ pctD d.startingSector ++ ") ".toList ++ d.extra, flags,
    (byteOrder l).map fun i => m.bytes.getD i 0, p, x.1, ?_, ?_, readVerbose_scattered _ _ _, ?_, hfl, ?_, ?_, ?_, (l4 x hx).1, (l4 x hx).2.1,
    by rw [← hxp]; exact (hfit x hx).1⟩
  · unfold ADirent.verboseSeg
    rw [l1]
    simp only [if_neg l2]
    rw [hview]
  · have hne : latin1 d.filename ++ " (".toList ++ pctD d.numSectors ++ " sectors, first@".toList ++ pctD d.startingSector ++ ") ".toList ++ d.extra ≠ [] := by simp
    unfold VSeg.info VSeg.body VSeg.title
    simp only [if_neg hne, if_true]
    rw [hp, List.length_map]
  · rw [hn0]
    have := readVerboseName_ok (latin1 d.filename) d.numSectors n0 d
    rw [hfl] at this
    exact this
  · unfold AImg.listing
    refine List.mem_map.mpr ⟨d, hd, ?_⟩
    rw [hget]
  · rw [hp]; simp
  · rw [hp, List.map_cons, List.getElem?_cons_zero, List.getElem?_eq_getElem hlt]
    congr 1
    rw [List.getD_eq_getElem?_getD, List.getElem?_eq_getElem hlt]
    rfl

/-- some descriptions -/
example : (VSeg.mk "A".toList "A.TXT (3 sectors, first@4) flags=[DOS2, IN_USE]".toList [] (.plain (.order 92176 [400, 401, 528]))).info =
      .ok "A.TXT (3 sectors, first@4) flags=[DOS2, IN_USE] ($0003 bytes) non-contiguous file; file index of first byte: $0190".toList ∧
    (VSeg.mk "VTOC".toList [] [] (.sectors 360 1 128)).info = .ok "VTOC (sector 360) $80 bytes".toList ∧
    (VSeg.mk "Segment #1".toList [] "Bad".toList (.obj 0x600 2 6)).info =
      .ok "Segment #1  address range: $0600-$0602 ($0002 bytes), file index of first byte: $0006  error='Bad'".toList ∧
    readVerboseName "A.TXT (3 sectors, first@4) flags=[DOS2, IN_USE]".toList = some ("A.TXT".toList, 3, 4, ["DOS2".toList, "IN_USE".toList]) := by
  decide +kernel

/-- a reordered segment without bytes -/
example : (VSeg.mk "none".toList [] [] (.plain (.order 16 []))).info = .error .indexError := rfl

/-- the file `A.TXT` of 300 bytes on a disk with two files -/
example (say : Err → Text) : ∃ m ds d s t vn pos, Mounted m ds ∧ d ∈ m.files ∧ d.filename = nameA ∧ d.verboseSeg say m.hdr m.bytes = .ok s ∧ s.info = .ok t ∧
    readVerbose t = some (.scattered vn 300 pos) ∧ m.bytes[pos]? = some 7 := by
  obtain ⟨m1, m, ds1, ds, _, _, _, hm, _, _, _, hf, _, hn, _⟩ := two_files
  obtain ⟨d, hd, hname⟩ := List.mem_map.mp hn
  obtain ⟨s, t, vn, _, data, pos, _, h1, h2, h3, _, _, h4, _, h5, _⟩ := C123_atari hm say hd
  have := mounted_find hm h4
  rw [hname, hf] at this
  injection this with this
  subst this
  have hl : dataA.length = 300 := by decide +kernel
  have h0 : dataA[0]? = some 7 := by decide +kernel
  rw [hl] at h3
  exact ⟨m, ds, d, s, t, vn, pos, hm, hd, hname, h1, h2, h3, h5.trans h0⟩

end Atr
