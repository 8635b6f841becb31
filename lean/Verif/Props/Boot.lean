import Verif.Spec.Boot
import Verif.Props.Program
import Verif.Props.Text
import Verif.Props.Assemble
import Verif.Props.KBootRun
import Verif.Props.DeliveryRun
/-!
# C96: from the command line to the running program
-/
namespace Atr

/-! ### endings of names -/

def lowerAscii (c : UInt8) : UInt8 := if 65 ≤ c.toNat ∧ c.toNat ≤ 90 then c + 32 else c

/-- a text as bytes, without capital letters -/
def Small (e : List Char) : Prop := ∀ c ∈ e, c.toNat < 256 ∧ ¬ (65 ≤ c.toNat ∧ c.toNat ≤ 90)

theorem lowerAscii_toNat (b : UInt8) : (lowerAscii b).toNat = if 65 ≤ b.toNat ∧ b.toNat ≤ 90 then b.toNat + 32 else b.toNat := by
  unfold lowerAscii
  split
  · rw [UInt8.toNat_add]
    have : (32 : UInt8).toNat = 32 := rfl
    omega
  · rfl

theorem caseOf_iff {b : UInt8} {c : Char} (hc : c.toNat < 256 ∧ ¬ (65 ≤ c.toNat ∧ c.toNat ≤ 90)) : CaseOf b c ↔ lowerAscii b = UInt8.ofNat c.toNat := by
  rw [← UInt8.toNat_inj, lowerAscii_toNat, UInt8.toNat_ofNat', Nat.mod_eq_of_lt (by omega : c.toNat < 2 ^ 8)]
  unfold CaseOf
  have := b.toNat_lt
  split <;> omega

theorem spells_iff {e : List Char} (he : Small e) (s : Bytes) : Spells CaseOf s e ↔ s.map lowerAscii = e.map fun c => UInt8.ofNat c.toNat := by
  induction e generalizing s with
  | nil => cases s <;> simp [Spells]
  | cons c e ih =>
    cases s with
    | nil => simp [Spells]
    | cons b s =>
      rw [Spells, ih (fun c hc => he c (List.mem_cons_of_mem _ hc)), caseOf_iff (he c (List.mem_cons_self ..))]
      simp

/-- the ending of a name: `endswith` after `lower` -/
theorem endsWith_iff {e : List Char} (he : Small e) (name : Bytes) : endsWith (e.map fun c => UInt8.ofNat c.toNat) name = true ↔ HasEnding e name := by
  unfold endsWith
  rw [show (fun c : UInt8 => if 65 ≤ c.toNat ∧ c.toNat ≤ 90 then c + 32 else c) = lowerAscii from rfl, beq_iff_eq]
  constructor
  · intro h
    have hlen := congrArg List.length h
    simp only [List.length_take, List.length_reverse, List.length_map] at hlen
    refine ⟨name.take (name.length - e.length), name.drop (name.length - e.length), (List.take_append_drop ..).symm, (spells_iff he _).mpr ?_⟩
    rw [List.take_reverse, List.length_map, List.length_map] at h
    have := List.reverse_inj.mp h
    rw [← this, List.map_drop]
  · rintro ⟨pre, s, rfl, hm⟩
    have hm := (spells_iff he s).mp hm
    rw [List.map_append, List.reverse_append, hm, List.take_append_of_le_length (by simp), List.take_of_length_le (by simp)]

/-! ### addresses -/

theorem denote_value (b : Nat) (l : List (Char × Nat)) : denote b l = digitsValue b (l.map (·.2)) := by
  induction l with
  | nil => rfl
  | cons p l ih => simp [denote, digitsValue, ih]

theorem Digits.numeral {b n : Nat} {t : List Char} (h : Digits b n t) : ∃ l, Numeral b l ∧ t = l.map (·.1) ∧ n = denote b l := by
  obtain ⟨l, h1, h2, h3, h4⟩ := h
  have hd : ∀ p ∈ hexDigits, p ∈ digitChars := by decide
  exact ⟨l, ⟨h1, fun p hp => ⟨hd p (h2 p hp).1, (h2 p hp).2⟩⟩, h3, by rw [denote_value]; exact h4⟩

theorem typed_value {n : Nat} {t : List Char} (h : Typed n t) : textToInt t false = .ok (n : Int) := by
  cases h with
  | hex h => obtain ⟨l, h1, rfl, rfl⟩ := h.numeral; exact (C36_value false l).2.2.2.2.2 h1
  | dollar h => obtain ⟨l, h1, rfl, rfl⟩ := h.numeral; exact (C36_value false l).2.1 h1
  | zeroX h => obtain ⟨l, h1, rfl, rfl⟩ := h.numeral; exact (C36_value false l).1 h1
  | decimal h => obtain ⟨l, h1, rfl, rfl⟩ := h.numeral; exact (C36_value false l).2.2.1 h1
  | binary h => obtain ⟨l, h1, rfl, rfl⟩ := h.numeral; exact (C36_value false l).2.2.2.1 h1

theorem digits_no_at {b n : Nat} {t : List Char} (h : Digits b n t) : '@' ∉ t := by
  obtain ⟨l, _, h2, rfl, _⟩ := h
  intro hm
  obtain ⟨p, hp, he⟩ := List.mem_map.mp hm
  exact absurd he ((by decide : ∀ p ∈ hexDigits, p.1 ≠ '@') p (h2 p hp).1)

theorem typed_no_at {n : Nat} {t : List Char} (h : Typed n t) : '@' ∉ t := by
  cases h with
  | hex h => exact digits_no_at h
  | dollar h | zeroX h | decimal h | binary h => simp [digits_no_at h]

theorem typed_ne_nil {n : Nat} {t : List Char} (h : Typed n t) : t ≠ [] := by
  cases h with
  | hex h => obtain ⟨l, h1, _, rfl, _⟩ := h; simpa using h1
  | dollar h | zeroX h | decimal h | binary h => simp

theorem given_segment {h : Host} {g : Given} (hg : g.Ok h) : dataSegment h.readText g.arg = .ok ((g.addr : Int), g.data) := by
  refine C62_whole _ hg.brackets (typed_no_at hg.typed) (typed_value hg.typed) ?_
  unfold Host.readText
  rw [if_pos (by rw [List.all_eq_true]; intro c hc; simpa using hg.latin c hc)]
  unfold Host.read
  rw [hg.there]

theorem given_loop {h : Host} : ∀ {gs : List Given}, (∀ g ∈ gs, g.Ok h) → dataLoop h.readText (gs.map Given.arg) = .ok (gs.map fun g => ((g.addr : Int), g.data)) := by
  intro gs hg
  rw [C62_list, List.map_map, List.map_map]
  exact List.map_congr_left fun g hm => given_segment (hg g hm)

theorem given_toSegs (gs : List Given) : toSegs (gs.map fun g => ((g.addr : Int), g.data)) = .ok (gs.map Given.seg) := by
  induction gs with
  | nil => rfl
  | cons g gs ih =>
    rw [List.map_cons, toSegs, if_neg (by omega), ih]
    rfl

/-- **C96, the arguments.** Files with addresses become the segments of the program in the order given, whatever the address is (0
included), and a run address is taken as typed. -/
theorem C96_args (W : World) {h : Host} {gs : List Given} (hg : ∀ g ∈ gs, g.Ok h) {run : Option Nat} {t : List Char} (hr : RunTyped run t)
    (more : List (List (List Char))) :
    ({ data := gs.map Given.arg :: more, run := t } : AsmArgs).build W h = .ok (gs.map Given.seg, run) := by
  unfold AsmArgs.build
  simp only [List.headD_cons, List.headD_nil]
  rw [given_loop hg]
  simp only [objFiles]
  unfold assembleSegments
  rw [given_loop hg]
  simp only [List.flatMap_nil, objLoop]
  rw [given_toSegs]
  cases hr with
  | none => rfl
  | some ht =>
    rename_i n
    have hne := typed_ne_nil ht
    have hv := typed_value ht
    have : (RunArg.text t).value = some (n : Int) := by
      cases t with
      | nil => exact absurd rfl hne
      | cons a t => simp only [RunArg.value, hv]
    rw [this]
    simp only
    rw [if_neg (by omega), Int.toNat_natCast]

/-! ### boot disks -/

theorem maker_atr {name : Bytes} (h : HasEnding ".atr".toList name) : bootMaker name = some createBootImage := by
  have : endsWith [0x2e, 0x61, 0x74, 0x72] name = true := (endsWith_iff (e := ['.', 'a', 't', 'r']) (by unfold Small; decide) name).mpr h
  unfold bootMaker
  rw [if_pos this]

theorem not_both {name : Bytes} (h : HasEnding ".dsk".toList name) : ¬ HasEnding ".atr".toList name := by
  rw [← endsWith_iff (e := ".dsk".toList) (by unfold Small; decide)] at h
  rw [← endsWith_iff (e := ".atr".toList) (by unfold Small; decide)]
  unfold endsWith at h ⊢
  rw [beq_iff_eq] at h ⊢
  intro h'
  rw [List.length_map] at h h'
  rw [show (".dsk".toList.length : Nat) = ".atr".toList.length from rfl, h'] at h
  exact absurd h (by decide)

theorem maker_dsk {name : Bytes} (h : HasEnding ".dsk".toList name) : bootMaker name = some createDelivery := by
  have h1 : endsWith [0x2e, 0x64, 0x73, 0x6b] name = true := (endsWith_iff (e := ['.', 'd', 's', 'k']) (by unfold Small; decide) name).mpr h
  have h2 : ¬ endsWith [0x2e, 0x61, 0x74, 0x72] name = true := fun h' =>
    not_both h ((endsWith_iff (e := ['.', 'a', 't', 'r']) (by unfold Small; decide) name).mp h')
  unfold bootMaker
  rw [if_neg h2, if_pos h1]

theorem maker_other {name : Bytes} (h1 : ¬ HasEnding ".atr".toList name) (h2 : ¬ HasEnding ".dsk".toList name) : bootMaker name = none := by
  have h1 : ¬ endsWith [0x2e, 0x61, 0x74, 0x72] name = true := fun h' => h1 ((endsWith_iff (e := ['.', 'a', 't', 'r']) (by unfold Small; decide) name).mp h')
  have h2 : ¬ endsWith [0x2e, 0x64, 0x73, 0x6b] name = true := fun h' => h2 ((endsWith_iff (e := ['.', 'd', 's', 'k']) (by unfold Small; decide) name).mp h')
  unfold bootMaker
  rw [if_neg h1, if_neg h2]

/-- **C96, Atari.** `boot` with an image name that ends with `.atr` and files with addresses: the program writes one file, and an Atari
that boots this file as a disk has every file given in memory at its address (where files overlap, the last one counts) and starts at
the address of the first.  A run address on the command line changes nothing (C22). -/
theorem C96_atari (W : World) {h : Host} {g : Given} {gs : List Given} (hg : ∀ x ∈ g :: gs, x.Ok h) {run : Option Nat} {t : List Char} (hr : RunTyped run t)
    (more : List (List (List Char))) {name : Bytes} (hn : HasEnding ".atr".toList name) (dry force : Bool)
    (hno : ∀ x ∈ g :: gs, ∀ p, x.seg.covers p → ¬ (0x2e0 ≤ p ∧ p ≤ 0x2e3))
    (hne : ∀ x ∈ g :: gs, x.data ≠ []) (hsize : 8 + ((g :: gs).map fun x => 4 + x.data.length).sum < 65536) :
    ∃ img, (Command.boot force { data := (g :: gs).map Given.arg :: more, run := t }).main W dry name h = (.ok (), h.write name img) ∧
      ∀ (A : Atari) (c : Cpu), Apart A → A.disk = atrSector img → Booted A c → 0x84 ≤ c.s.toNat → (∀ x ∈ g :: gs, Loadable A x.seg) →
        ∃ e, A.Runs c e ∧ e.pc = g.addr ∧ ∀ x ∈ g :: gs, ∀ p, x.seg.covers p → e.mem p = memAt ((g :: gs).map Given.seg) p := by
  have hb := C96_args W hg hr more
  have h0 : ∀ s ∈ (g :: gs).map Given.seg, ∀ p, s.covers p → ¬ (0x2e0 ≤ p ∧ p ≤ 0x2e3) := by
    intro s hs
    obtain ⟨x, hx, rfl⟩ := List.mem_map.mp hs
    exact hno x hx
  have hx : xexSegments ((g :: gs).map Given.seg) none = .ok (⟨0x2e0, enc16 g.addr⟩ :: (g :: gs).map Given.seg) := by
    unfold xexSegments
    rw [if_neg]
    · rfl
    · intro h
      rw [List.any_eq_true] at h
      obtain ⟨s, hs, he⟩ := h
      obtain ⟨x, hx, rfl⟩ := List.mem_map.mp hs
      have he : x.seg.origin = 0x2e0 := by simpa using he
      have hl : 0 < x.data.length := List.length_pos_iff.mpr (hne x hx)
      refine hno x hx 0x2e0 ⟨by omega, ?_⟩ (by omega)
      rw [he]
      show _ < _ + x.data.length
      omega
  have hsum : (((g :: gs).map Given.seg).map fun s => 4 + s.data.length).sum = ((g :: gs).map fun x => 4 + x.data.length).sum := by
    rw [List.map_map]
    rfl
  obtain ⟨x, hxx, hlen⟩ : ∃ x, getXex ((g :: gs).map Given.seg) none = .ok x ∧ x.length < 65536 := by
    unfold getXex
    rw [hx]
    refine ⟨_, rfl, ?_⟩
    rw [xexSize_eq]
    unfold xexSize
    rw [List.map_cons, List.sum_cons, hsum]
    simp only [enc16, List.length_cons, List.length_nil]
    omega
  obtain ⟨img, hi, -⟩ := C21_partial (r := run) hxx hlen
  refine ⟨img, C82_boot (maker_atr hn) hb hi, fun A c ha hd hboot hs hload => ?_⟩
  have hload' : ∀ s ∈ (g :: gs).map Given.seg, Loadable A s := by
    intro s hs
    obtain ⟨x, hx, rfl⟩ := List.mem_map.mp hs
    exact hload x hx
  obtain ⟨e, e1, e2, e3⟩ := C85_start (segs := gs.map Given.seg) hi (by
    show xexSize ((g :: gs).map Given.seg) + 6 < _
    unfold xexSize
    rw [hsum]
    omega) ha hload' h0 hd hboot hs
  exact ⟨e, e1, e2, fun x hx p hp => e3 _ (List.mem_map.mpr ⟨x, hx, rfl⟩) p hp⟩

/-- **C96, Apple.** The same for a name that ends with `.dsk` and an Apple ][: the disk loads every file to its address and starts at
the run address, or at the first address if there is none.  The files must not share pages of 256 bytes (C56), the pages must be ones
that the loader can load, and there must be room on the disk for the pages and in the boot sector for the list of addresses. -/
theorem C96_apple (W : World) {h : Host} {g : Given} {gs : List Given} (hg : ∀ x ∈ g :: gs, x.Ok h) {run : Option Nat} {t : List Char} (hr : RunTyped run t)
    (more : List (List (List Char))) {name : Bytes} (hn : HasEnding ".dsk".toList name) (dry force : Bool)
    (hl : ∀ x ∈ allPages ((g :: gs).map Given.seg), loadable x.1 = true) (hpages : (allPages ((g :: gs).map Given.seg)).length ≤ 559)
    (hlist : ((g :: gs).map fun x => listRoom (x.addr / 256) (pageCount x.addr x.data.length)).sum ≤ 119)
    (hdis : ((g :: gs).map Given.seg).Pairwise fun s t => ∀ a, ¬ (s.touches a ∧ t.touches a)) :
    ∃ img, (Command.boot force { data := (g :: gs).map Given.arg :: more, run := t }).main W dry name h = (.ok (), h.write name img) ∧
      ∀ (A : Apple) (c : Cpu), A.slot < 8 → A.disk = dskDisk img → AppleBooted A c → 6 ≤ c.s.toNat →
        ∃ e d, A.Runs (c, 0) (e, d) ∧ e.pc = run.getD g.addr % 65536 ∧
          ∀ x ∈ g :: gs, ∀ i (hi : i < x.data.length), e.mem (loadAddr x.addr + i) = x.data[i] := by
  have hb := C96_args W hg hr more
  obtain ⟨img, hi⟩ := C44_fits (segs := (g :: gs).map Given.seg) (runAddr := run) (by simp) hpages (by rw [List.map_map]; exact hlist)
  refine ⟨img, C82_boot (maker_dsk hn) hb hi, fun A c hA hd hc hs => ?_⟩
  obtain ⟨e, d, r, e1, e2, e3, e4, -⟩ := C86_contents_partial hi hl hdis hA hd hc hs
  refine ⟨e, d, e1, ?_, fun x hx i hi => e4 _ (List.mem_map.mpr ⟨x, hx, rfl⟩) i hi⟩
  rw [e3]
  unfold jumpTarget at e2
  cases run with
  | some a => rw [← Option.some.inj e2]; rfl
  | none => rw [← Option.some.inj e2]; rfl

/-- **C96, other names and no files.** Without one of the two endings, or without files, nothing is written and nothing is reported as
an error. -/
theorem C96_nothing (W : World) (h : Host) (name : Bytes) (dry force : Bool) (a : AsmArgs) :
    ((¬ HasEnding ".atr".toList name ∧ ¬ HasEnding ".dsk".toList name) → (Command.boot force a).main W dry name h = (.ok (), h)) ∧
    (a.data.headD [] = [] → a.objs.headD [] = [] → (a.run = [] ∨ ∃ n, Typed n a.run) → (Command.boot force a).main W dry name h = (.ok (), h)) := by
  refine ⟨fun ⟨h1, h2⟩ => ?_, fun h1 h2 h3 => ?_⟩
  · show bootImage W a name h = _
    unfold bootImage
    rw [maker_other h1 h2]
  · show bootImage W a name h = _
    unfold bootImage
    cases bootMaker name with
    | none => rfl
    | some make =>
      simp only
      have hb : ∃ r, a.build W h = .ok ([], r) := by
        obtain ⟨r, hr⟩ : ∃ r, RunTyped r a.run := by
          rcases h3 with h3 | ⟨n, h3⟩
          · exact ⟨none, by rw [h3]; exact .none⟩
          · exact ⟨some n, .some h3⟩
        have := C96_args W (h := h) (gs := []) (by simp) hr []
        refine ⟨r, ?_⟩
        rw [← show (([] : List Given).map Given.seg) = [] from rfl, ← this]
        unfold AsmArgs.build
        rw [h1, h2]
        rfl
      obtain ⟨r, hb⟩ := hb
      rw [hb]

/-! ### executables -/

/-- **C96, formats.** The ending of the output name decides on the format, in small or capital letters. -/
theorem C96_kind (name : Bytes) :
    (exeKind name = some .xex ↔ HasEnding "xex".toList name) ∧
    (exeKind name = some .bsave ↔ HasEnding "bin".toList name ∨ HasEnding "bsave".toList name) := by
  have e1 : endsWith [0x78, 0x65, 0x78] name = true ↔ HasEnding "xex".toList name := endsWith_iff (e := ['x', 'e', 'x']) (by unfold Small; decide) name
  have e2 : endsWith [0x62, 0x69, 0x6e] name = true ↔ HasEnding "bin".toList name := endsWith_iff (e := ['b', 'i', 'n']) (by unfold Small; decide) name
  have e3 : endsWith [0x62, 0x73, 0x61, 0x76, 0x65] name = true ↔ HasEnding "bsave".toList name :=
    endsWith_iff (e := ['b', 's', 'a', 'v', 'e']) (by unfold Small; decide) name
  have last : ∀ {n : Nat} {l : Bytes} {a : UInt8} {t : Bytes}, l.take (n + 1) = a :: t → l.head? = some a := by
    intro n l a t h
    cases l with
    | nil => cases h
    | cons b l => rw [List.take_succ_cons] at h; injection h with h; rw [h]; rfl
  have excl : endsWith [0x78, 0x65, 0x78] name = true → ¬ (endsWith [0x62, 0x69, 0x6e] name = true ∨ endsWith [0x62, 0x73, 0x61, 0x76, 0x65] name = true) := by
    unfold endsWith
    simp only [beq_iff_eq]
    intro h1 h2
    have h1 := last (n := 2) (a := 0x78) h1
    rcases h2 with h2 | h2
    · have h2 := last (n := 2) (a := 0x6e) h2
      rw [h1] at h2
      exact absurd h2 (by decide)
    · have h2 := last (n := 4) (a := 0x65) h2
      rw [h1] at h2
      exact absurd h2 (by decide)
  rw [← e1, ← e2, ← e3]
  unfold exeKind
  by_cases h1 : endsWith [0x78, 0x65, 0x78] name = true
  · have := excl h1
    simp [h1, this]
  · by_cases h2 : endsWith [0x62, 0x69, 0x6e] name = true ∨ endsWith [0x62, 0x73, 0x61, 0x76, 0x65] name = true
    · simp [h1, h2]
    · simp [h1, h2]

/-- the executable of a format -/
def exeOf : ExeKind → List Seg → Option Nat → Except Err Bytes
  | .xex => getXex
  | .bsave => getBsave

theorem C96_create (k : ExeKind) (output : Bytes) (segs : List Seg) (run : Option Nat) : createExecutable k output segs run = exeOf ((exeKind output).getD k) segs run := by
  unfold createExecutable
  cases (exeKind output).getD k <;> rfl

/-- **C96, the machine itself.** `assemble` with the image `.` writes a file of the machine: the executable of the files given, in the
format of the ending.  An existing file is kept unless `-f` is given; with `--dry-run` nothing is written.  A name without one of the three endings
is an `AttributeError`. -/
theorem C96_local (W : World) {h : Host} {gs : List Given} (hg : ∀ x ∈ gs, x.Ok h) {run : Option Nat} {t : List Char} (hr : RunTyped run t)
    (more : List (List (List Char))) (dry force : Bool) (output : Bytes) :
    (∀ k x, exeKind output = some k → exeOf k (gs.map Given.seg) run = .ok x →
      (Command.assemble force { data := gs.map Given.arg :: more, run := t } output).main W dry [0x2e] h =
        (.ok (), if (h.files.get output ≠ none ∧ force = false) ∨ dry = true then h else h.write output x)) ∧
    (¬ HasEnding "xex".toList output → ¬ HasEnding "bin".toList output → ¬ HasEnding "bsave".toList output →
      (Command.assemble force { data := gs.map Given.arg :: more, run := t } output).main W dry [0x2e] h = (.error (.py .attributeError), h)) := by
  have hb := C96_args W hg hr more
  have hm : (Command.assemble force { data := gs.map Given.arg :: more, run := t } output).main W dry [0x2e] h =
      match makeExe none output (gs.map Given.seg) run with
      | .error e => (.error (.py e), h)
      | .ok x => (.ok (), localSave { force := force, dryRun := dry } h output x) := by
    unfold Command.main
    simp only
    rw [if_pos (show [0x2e] = dotName from rfl)]
    unfold Command.onLocal
    simp only
    rw [hb]
    rfl
  refine ⟨fun k x hk hx => ?_, fun h1 h2 h3 => ?_⟩
  · rw [hm, show makeExe none output (gs.map Given.seg) run = .ok x by
      unfold makeExe
      rw [hk]
      simp only
      rw [C96_create, hk]
      exact hx]
    simp only
    unfold localSave
    cases hf : h.files.get output with
    | none => cases dry <;> simp
    | some d => cases dry <;> cases force <;> simp
  · have hk : exeKind output = none := by
      cases hk : exeKind output with
      | none => rfl
      | some k =>
        cases k with
        | xex => exact absurd ((C96_kind output).1.mp hk) h1
        | bsave => rcases (C96_kind output).2.mp hk with h | h <;> contradiction
    rw [hm, show makeExe none output (gs.map Given.seg) run = .error .attributeError by unfold makeExe; rw [hk]]

/-- **C96, images.** What `assemble` asks of an image (C84, C92): to add the executable of the files given, in the format of the ending or
else of the image. -/
theorem C96_asked (W : World) {h : Host} {gs : List Given} (hg : ∀ x ∈ gs, x.Ok h) {run : Option Nat} {t : List Char} (hr : RunTyped run t)
    (more : List (List (List Char))) (dry force : Bool) (name output : Bytes) (k : ExeKind) {x : Bytes}
    (hx : exeOf ((exeKind output).getD k) (gs.map Given.seg) run = .ok x) :
    Run.asked k W h name ⟨dry, name, .assemble force { data := gs.map Given.arg :: more, run := t } output⟩ =
      some ('B', { force := force, dryRun := dry }, .add [(output, x)]) := by
  have hb := C96_args W hg hr more
  unfold Run.asked
  simp only [if_true]
  rw [hb]
  simp only
  rw [C96_create, show (exeKind output).getD ((exeKind output).getD k) = (exeKind output).getD k by cases exeKind output <;> rfl, hx]

/-! ### examples -/

/-- a machine with two files, one of them with an address typed with leading zeros -/
def gameHost : Host := { files := [(ascii "a", [0xa9, 1]), (ascii "b c", [0x60])] }
def gameFiles : List Given := [⟨"a".toList, "$2000".toList, 0x2000, [0xa9, 1]⟩, ⟨"b c".toList, "0600".toList, 0x600, [0x60]⟩]

theorem gameFiles_ok : ∀ g ∈ gameFiles, g.Ok gameHost := by
  intro g hg
  simp only [gameFiles, List.mem_cons, List.not_mem_nil, or_false] at hg
  rcases hg with rfl | rfl
  · refine ⟨.dollar ⟨[('2', 2), ('0', 0), ('0', 0), ('0', 0)], by decide, by decide, by decide, by decide⟩, by decide, by decide, by decide +kernel⟩
  · refine ⟨.hex ⟨[('0', 0), ('6', 6), ('0', 0), ('0', 0)], by decide, by decide, by decide, by decide⟩, by decide, by decide, by decide +kernel⟩

/-- `atrcopy GAME.Atr boot -d a@$2000 "b c@0600"`: an Atari starts at 0x2000 with both files loaded -/
example (W : World) : ∃ img, (Command.boot false { data := [["a@$2000".toList, "b c@0600".toList]] }).main W false (ascii "GAME.Atr") gameHost =
      (.ok (), gameHost.write (ascii "GAME.Atr") img) ∧
    ∀ c, Booted (someAtari img) c → 0x84 ≤ c.s.toNat → ∃ e, (someAtari img).Runs c e ∧ e.pc = 0x2000 ∧ e.mem 0x2001 = 1 ∧ e.mem 0x600 = 0x60 := by
  obtain ⟨img, h1, h2⟩ := C96_atari W (g := ⟨"a".toList, "$2000".toList, 0x2000, [0xa9, 1]⟩) (gs := [⟨"b c".toList, "0600".toList, 0x600, [0x60]⟩]) gameFiles_ok .none []
    (name := ascii "GAME.Atr") ⟨ascii "GAME", ascii ".Atr", by decide +kernel, (spells_iff (by unfold Small; decide) _).mpr (by decide +kernel)⟩ false false
    (by intro x hx; simp only [List.mem_cons, List.not_mem_nil, or_false] at hx; rcases hx with rfl | rfl <;> (unfold Seg.covers Given.seg; simp only [List.length_cons, List.length_nil]; intro p hp; omega))
    (by intro x hx; simp only [List.mem_cons, List.not_mem_nil, or_false] at hx; rcases hx with rfl | rfl <;> simp) (by decide)
  refine ⟨img, h1, fun c hc hs => ?_⟩
  obtain ⟨e, e1, e2, e3⟩ := h2 (someAtari img) c (someAtari_apart img) rfl hc hs (by
    intro x hx
    simp only [List.mem_cons, List.not_mem_nil, or_false] at hx
    rcases hx with rfl | rfl
    · refine ⟨by simp [Given.seg], by decide, fun p h1 h2 => ?_⟩
      simp only [Given.seg, List.length_cons, List.length_nil] at h1 h2
      show ¬ (((p < 0x40 ∨ (0x200 ≤ p ∧ p < 0x2e0)) ∨ _) ∨ _)
      omega
    · refine ⟨by simp [Given.seg], by decide, fun p h1 h2 => ?_⟩
      simp only [Given.seg, List.length_cons, List.length_nil] at h1 h2
      show ¬ (((p < 0x40 ∨ (0x200 ≤ p ∧ p < 0x2e0)) ∨ _) ∨ _)
      omega)
  refine ⟨e, e1, e2, ?_, ?_⟩
  · exact (e3 _ (List.mem_cons_self ..) 0x2001 (by unfold Seg.covers Given.seg; decide)).trans (by decide)
  · exact (e3 _ (List.mem_cons_of_mem _ (List.mem_cons_self ..)) 0x600 (by unfold Seg.covers Given.seg; decide)).trans (by decide)

end Atr
