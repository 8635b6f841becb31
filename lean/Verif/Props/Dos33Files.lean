import Verif.Lemmas.Dos33Ops
import Verif.Lemmas.Dos33Blank
/-!
# C10-C13, and the DOS 3.3 parts of C09, C50, C51: writing, deleting and shredding on consistent DOS 3.3 volumes

`Mounted33 m cs ds` (`Verif/Spec/Dos33.lean`): `m` is what opening its bytes gives, and the volume is consistent.
`cs` are the catalog sectors.
-/
namespace Atr

/-! ### helpers about listings -/

theorem lookup33 {m : DImg} (hnd : m.names.Nodup) (n : Bytes) :
    (∃ t x, (n, t, x) ∈ m.listing ∧ m.findFile n = x) ∨ (n ∉ m.names ∧ m.findFile n = .error .fileNotFound) := by
  by_cases h : n ∈ m.names
  · left
    rw [← listing33_names] at h
    obtain ⟨p, hp, rfl⟩ := List.mem_map.mp h
    exact ⟨p.2.1, p.2.2, hp, find33_of_listing hnd hp⟩
  · exact Or.inr ⟨h, (find33_missing h).2⟩

theorem find33_insert {m m' : DImg} (hm : m.names.Nodup) (hm' : m'.names.Nodup) {L1 L2 : List (Bytes × Nat × Except Err Bytes)}
    {p : Bytes × Nat × Except Err Bytes} (h1 : m.listing = L1 ++ L2) (h2 : m'.listing = L1 ++ p :: L2) {n : Bytes} (hn : n ≠ p.1) :
    m'.findFile n = m.findFile n := by
  rcases lookup33 hm n with ⟨t, x, hx, hf⟩ | ⟨hx, hf⟩
  · rw [hf]
    apply find33_of_listing hm' (t := t)
    rw [h2]; rw [h1] at hx
    simp only [List.mem_append, List.mem_cons] at *
    rcases hx with hx | hx
    · exact Or.inl hx
    · exact Or.inr (Or.inr hx)
  · rw [hf]
    apply (find33_missing _).2
    rw [← listing33_names, h1] at hx
    rw [← listing33_names, h2]
    simp only [List.map_append, List.map_cons, List.mem_append, List.mem_cons] at *
    rintro (h | h | h)
    · exact hx (Or.inl h)
    · exact hn h
    · exact hx (Or.inr h)

theorem find33_same {m m' : DImg} (hm : m.names.Nodup) (hm' : m'.names.Nodup) (h : m'.listing = m.listing) (n : Bytes) :
    m'.findFile n = m.findFile n := by
  rcases lookup33 hm n with ⟨t, x, hx, hf⟩ | ⟨hx, hf⟩
  · rw [hf]; exact find33_of_listing hm' (by rw [h]; exact hx)
  · rw [hf]; exact (find33_missing (by rw [← listing33_names, h, listing33_names]; exact hx)).2

/-- what a successful write does -/
theorem write33_ok {m m' : DImg} {cs ds} {name data : Bytes} {ftype : Nat} (hm : Mounted33 m cs ds) (ht : ftype < 128) (ht0 : ftype ≠ 0)
    (hnew : norm33 name ∉ m.names) (hw : DImg.writeFile name ftype data m = (.ok (), m')) :
    ∃ ds' L1 L2, Mounted33 m' cs ds' ∧ m.listing = L1 ++ L2 ∧ m'.listing = L1 ++ (norm33 name, ftype, .ok (padded33 data)) :: L2 ∧
      dataSecs33 data.length + listSecs33 data.length ≤ (freePool33 m.bytes).length ∧
      freePool33 m'.bytes = (freePool33 m.bytes).drop (dataSecs33 data.length + listSecs33 data.length) ∧
      ∃ d ts map, d ∈ m'.files ∧ d.filename = norm33 name ∧ FileSecs m'.bytes d ts map ∧
        map ++ ts = (freePool33 m.bytes).take (dataSecs33 data.length + listSecs33 data.length) ∧ map.length = dataSecs33 data.length := by
  obtain ⟨c, e⟩ := mounted33_iff.mp hm
  generalize m.bytes = b at c e
  subst e
  obtain ⟨h1, h2, h3, h4⟩ := (write33_ok_iff c ht ht0 hnew).mp (by rw [hw])
  obtain ⟨b', ds', L1, L2, k1, k2, k3, k4, k5, k6, _⟩ := write33_mounted c h1 h2 ht ht0 h3 hnew h4
  rw [k1] at hw
  cases hw
  exact ⟨ds', L1, L2, mounted33_mount k2, k3, k4, h4, k5, k6⟩

/-- **C10.** A successful `write_file` under a canonical name with a non-text type (nothing is assumed about how many sectors
or track/sector lists the data needs): the file is listed, has the type, and reads back the data filled up with zeros to
whole sectors, also after re-opening the image. -/
theorem C10_write_then_read {m m' : DImg} {cs ds} {name data : Bytes} {ftype : Nat} (hm : Mounted33 m cs ds) (hc : norm33 name = name)
    (ht : ftype < 128) (ht0 : ftype ≠ 0) (hnew : name ∉ m.names) (hw : DImg.writeFile name ftype data m = (.ok (), m')) :
    m'.findFile name = .ok (padded33 data) ∧ (name, ftype, .ok (padded33 data)) ∈ m'.listing ∧ DImg.open m'.bytes = .ok m' := by
  obtain ⟨ds', L1, L2, h1, _, h3, _⟩ := write33_ok hm ht ht0 (by rw [hc]; exact hnew) hw
  rw [hc] at h3
  have hmem : (name, ftype, Except.ok (padded33 data)) ∈ m'.listing := by rw [h3]; simp
  exact ⟨find33_of_listing (mounted33_nodup h1) hmem, hmem, h1.1⟩

/-- C10 for names that are not canonical (more than 29 characters, trailing blanks): stored under `norm33 name`. -/
theorem C10_write_any_name {m m' : DImg} {cs ds} {name data : Bytes} {ftype : Nat} (hm : Mounted33 m cs ds)
    (ht : ftype < 128) (ht0 : ftype ≠ 0) (hnew : norm33 name ∉ m.names) (hw : DImg.writeFile name ftype data m = (.ok (), m')) :
    m'.findFile (norm33 name) = .ok (padded33 data) ∧ (norm33 name, ftype, .ok (padded33 data)) ∈ m'.listing := by
  obtain ⟨ds', L1, L2, h1, _, h3, _⟩ := write33_ok hm ht ht0 hnew hw
  have hmem : (norm33 name, ftype, Except.ok (padded33 data)) ∈ m'.listing := by rw [h3]; simp
  exact ⟨find33_of_listing (mounted33_nodup h1) hmem, hmem⟩

/-- Exactly when a write succeeds: non-empty data, ASCII name, room in the catalog (the last catalog sector cannot be used),
and enough free sectors for the data and the track/sector lists. -/
theorem C10_write_succeeds_iff {m : DImg} {cs ds} {name data : Bytes} {ftype : Nat} (hm : Mounted33 m cs ds)
    (ht : ftype < 128) (ht0 : ftype ≠ 0) (hnew : norm33 name ∉ m.names) :
    (DImg.writeFile name ftype data m).1 = .ok () ↔ data ≠ [] ∧ Ascii33 name ∧ m.files.length < 7 * (cs.length - 1) ∧
      dataSecs33 data.length + listSecs33 data.length ≤ (freePool33 m.bytes).length := by
  obtain ⟨c, e⟩ := mounted33_iff.mp hm
  generalize m.bytes = b at c e
  subst e
  exact write33_ok_iff c ht ht0 hnew

/-- **C11.** A successful `write_file` inserts one entry in the listing and leaves all others alone: same order, names, types
and contents; and the lowest free sectors are taken. -/
theorem C11_write_frame {m m' : DImg} {cs ds} {name data : Bytes} {ftype : Nat} (hm : Mounted33 m cs ds) (hc : norm33 name = name)
    (ht : ftype < 128) (ht0 : ftype ≠ 0) (hnew : name ∉ m.names) (hw : DImg.writeFile name ftype data m = (.ok (), m')) :
    (∃ L1 L2, m.listing = L1 ++ L2 ∧ m'.listing = L1 ++ (name, ftype, .ok (padded33 data)) :: L2) ∧
    (∀ other, other ≠ name → m'.findFile other = m.findFile other) ∧ (∃ ds', Mounted33 m' cs ds') ∧
    freePool33 m'.bytes = (freePool33 m.bytes).drop (dataSecs33 data.length + listSecs33 data.length) := by
  obtain ⟨ds', L1, L2, h1, h2, h3, _, h5, _⟩ := write33_ok hm ht ht0 (by rw [hc]; exact hnew) hw
  rw [hc] at h3
  exact ⟨⟨L1, L2, h2, h3⟩, fun other ho => find33_insert (mounted33_nodup hm) (mounted33_nodup h1) h2 h3 ho, ⟨ds', h1⟩, h5⟩

/-- **C12.** `delete_file` of a live file succeeds; the name is gone, everything else is as before, and the free sectors are
exactly the ones free before and the data sectors and track/sector list sectors of the file (none of which was free).
`map` are the data sectors: the contents of the file is what they hold. -/
theorem C12_delete {m : DImg} {cs ds} {name : Bytes} (hm : Mounted33 m cs ds) (hl : name ∈ m.names) :
    ∃ m' ds', DImg.deleteFile name m = (.ok (), m') ∧ Mounted33 m' cs ds' ∧ m'.findFile name = .error .fileNotFound ∧ name ∉ m'.names ∧
      (∃ L1 L2 x, m.listing = L1 ++ (name, x) :: L2 ∧ m'.listing = L1 ++ L2) ∧
      (∀ other, other ≠ name → m'.findFile other = m.findFile other) ∧
      ∃ d ts map, d ∈ m.files ∧ d.filename = name ∧ FileSecs m.bytes d ts map ∧
        m.findFile name = .ok (map.flatMap (sec33 m.bytes)) ∧
        (∀ s, IsFree33 m'.bytes s ↔ IsFree33 m.bytes s ∨ s ∈ ts ++ map) ∧ ∀ s ∈ ts ++ map, ¬ IsFree33 m.bytes s := by
  obtain ⟨c, e⟩ := mounted33_iff.mp hm
  generalize m.bytes = b at c e
  subst e
  obtain ⟨b', ds', L1, L2, d, ts, map, h1, h2, h3, h4, h5, h6, h7, h8, h9, _⟩ := delete33_mounted c hl
  have hm' : Mounted33 (mount33 b' ds') cs ds' := mounted33_mount h2
  have hnd := mounted33_nodup hm
  have hnot : name ∉ (mount33 b' ds').names := by
    rw [← listing33_names, h4]
    rw [← listing33_names, h3] at hnd
    simp only [List.map_append, List.map_cons] at hnd ⊢
    exact (List.nodup_cons.mp ((List.perm_middle (a := name) (l₁ := L1.map (·.1)) (l₂ := L2.map (·.1))).nodup hnd)).1
  refine ⟨_, ds', h1, hm', (find33_missing hnot).2, hnot, ⟨L1, L2, _, h3, h4⟩, ?_, d, ts, map, h5, h6, h7, ?_, h8, h9⟩
  · intro other ho
    exact (find33_insert (mounted33_nodup hm') hnd h4 h3 ho).symm
  · have hf : (mount33 b ds).findFile name = d.getFile 560 b :=
      find33_of_listing (t := d.ftype) hnd (by rw [h3]; simp)
    obtain ⟨g1, g2⟩ := List.mem_filter.mp (show d ∈ ds.filter (fun d => !d.deleted) from h5)
    obtain ⟨ts', map', k1, _, _, _, k5⟩ := c.contents g1 (by simpa using g2)
    obtain ⟨rfl, rfl⟩ := h7.unique k1
    rw [hf]; exact k5

theorem middle_unique {α β : Type} (f : α → β) {a b : α} (hab : f a = f b) : ∀ (l1 k1 : List α) {l2 k2 : List α},
    ((l1 ++ a :: l2).map f).Nodup → l1 ++ a :: l2 = k1 ++ b :: k2 → l1 = k1 ∧ l2 = k2 := by
  intro l1
  induction l1 with
  | nil =>
    intro k1 l2 k2 hnd h
    cases k1 with
    | nil => injection h with _ h; exact ⟨rfl, h⟩
    | cons y k1 =>
      exfalso
      injection h with h h'
      subst h'
      rw [List.nil_append, List.map_cons, List.nodup_cons] at hnd
      exact hnd.1 (by rw [hab]; simp)
  | cons y l1 ih =>
    intro k1 l2 k2 hnd h
    cases k1 with
    | nil =>
      exfalso
      injection h with h h'
      subst h
      rw [List.cons_append, List.map_cons, List.nodup_cons] at hnd
      exact hnd.1 (by rw [← hab]; simp)
    | cons z k1 =>
      injection h with h h'
      subst h
      rw [List.cons_append, List.map_cons, List.nodup_cons] at hnd
      obtain ⟨h1, h2⟩ := ih k1 hnd.2 h'
      exact ⟨by rw [h1], h2⟩

/-- C12: writing a file and deleting it again restores the listing and the pool of free sectors. -/
theorem C12_write_delete {m m' : DImg} {cs ds} {name data : Bytes} {ftype : Nat} (hm : Mounted33 m cs ds) (hc : norm33 name = name)
    (ht : ftype < 128) (ht0 : ftype ≠ 0) (hnew : name ∉ m.names) (hw : DImg.writeFile name ftype data m = (.ok (), m')) :
    ∃ m'', DImg.deleteFile name m' = (.ok (), m'') ∧ m''.listing = m.listing ∧ freePool33 m''.bytes = freePool33 m.bytes := by
  obtain ⟨ds', L1, L2, h1, h2, h3, _, h5, d, ts, map, h6, h7, h8, h9, _⟩ := write33_ok hm ht ht0 (by rw [hc]; exact hnew) hw
  rw [hc] at h3 h7
  have hl : name ∈ m'.names := by rw [← listing33_names, h3]; simp
  obtain ⟨m'', ds'', k1, k2, _, _, ⟨K1, K2, x, k3, k4⟩, _, d', ts', map', k5, k6, k7, _, k8, k9⟩ := C12_delete h1 hl
  have hnd := mounted33_nodup h1
  refine ⟨m'', k1, ?_, ?_⟩
  · rw [← listing33_names, h3] at hnd
    rw [h3] at k3
    obtain ⟨e1, e2⟩ := middle_unique (·.1) (show (name, ftype, Except.ok (padded33 data)).1 = (name, x).1 from rfl) L1 K1 hnd k3
    rw [k4, h2, e1, e2]
  · have hdd : d' = d := by
      have := mounted33_iff.mp h1
      have hnd' : (m'.files.map (·.filename)).Nodup := hnd
      obtain ⟨i, hi⟩ := List.getElem?_of_mem k5
      obtain ⟨j, hj⟩ := List.getElem?_of_mem h6
      have hi' : (m'.files.map (·.filename))[i]? = some name := by rw [List.getElem?_map, hi, Option.map_some, k6]
      have hj' : (m'.files.map (·.filename))[j]? = some name := by rw [List.getElem?_map, hj, Option.map_some, h7]
      have hij : i = j := (List.getElem?_inj (List.getElem?_eq_some_iff.mp hi').1 hnd').mp (hi'.trans hj'.symm)
      subst hij
      rw [hi] at hj; injection hj
    subst hdd
    obtain ⟨rfl, rfl⟩ := k7.unique h8
    unfold freePool33
    apply List.filter_congr
    intro s _
    have hs : IsFree33 m''.bytes s ↔ IsFree33 m.bytes s := by
      rw [k8]
      have hmem : s ∈ ts' ++ map' ↔ s ∈ (freePool33 m.bytes).take (dataSecs33 data.length + listSecs33 data.length) := by
        rw [← h9]; simp [or_comm]
      have hfree : IsFree33 m'.bytes s ↔ s ∈ freePool33 m'.bytes := by
        unfold freePool33
        rw [List.mem_filter, List.mem_range]
        exact ⟨fun h => ⟨h.1, decide_eq_true h⟩, fun h => of_decide_eq_true h.2⟩
      have hfree0 : IsFree33 m.bytes s ↔ s ∈ freePool33 m.bytes := by
        unfold freePool33
        rw [List.mem_filter, List.mem_range]
        exact ⟨fun h => ⟨h.1, decide_eq_true h⟩, fun h => of_decide_eq_true h.2⟩
      rw [hmem, hfree, hfree0, h5, or_comm, ← List.mem_append, List.take_append_drop]
    exact decide_eq_decide.mpr hs

/-! ### failing writes -/

/-- **C13 (partial).** The full statement "if `write_file` raises, the image bytes are the same" is false, see `C13_refuted`.
What does hold: a failing `write_file` keeps every byte outside the VTOC sector, the listing and all contents; the volume
stays consistent; and sectors may be lost from the pool of free sectors, namely the first `n`. -/
theorem C13_failing_write_partial {m m' : DImg} {cs ds} {name data : Bytes} {ftype : Nat} {e : Err} (hm : Mounted33 m cs ds)
    (ht : ftype < 128) (ht0 : ftype ≠ 0) (hnew : norm33 name ∉ m.names) (hw : DImg.writeFile name ftype data m = (.error e, m')) :
    Mounted33 m' cs ds ∧ m'.listing = m.listing ∧ (∀ s, s ≠ 272 → sec33 m'.bytes s = sec33 m.bytes s) ∧
      m'.bytes.length = m.bytes.length ∧ ∃ n, freePool33 m'.bytes = (freePool33 m.bytes).drop n := by
  obtain ⟨c, e⟩ := mounted33_iff.mp hm
  generalize m.bytes = b at c e
  subst e
  obtain ⟨b', n, rfl, v⟩ := write33_fails c ht ht0 hnew hw
  exact ⟨mounted33_mount (vtocLess_consistent c v), vtocLess_listing c v, v.others, v.size.trans c.size.symm, n, v.pool⟩

/-- C13 holds when the data itself does not fit, and for empty data. -/
theorem C13_data_too_long {m : DImg} {cs ds} (name data : Bytes) (ftype : Nat) (hm : Mounted33 m cs ds)
    (h : (freePool33 m.bytes).length < dataSecs33 data.length) :
    DImg.writeFile name ftype data m = (.error .notEnoughSpace, m) := by
  obtain ⟨c, e⟩ := mounted33_iff.mp hm
  generalize m.bytes = b at c e h
  subst e
  exact write33_noData c h

/-- Where C13 fails: if there is room for the data but not for the track/sector lists, `write_file` raises
`NotEnoughSpaceOnDisk` and the sectors reserved for the data are lost. -/
theorem C13_leak_lists {m : DImg} {cs ds} (name data : Bytes) (ftype : Nat) (hm : Mounted33 m cs ds)
    (h : dataSecs33 data.length ≤ (freePool33 m.bytes).length)
    (h' : (freePool33 m.bytes).length < dataSecs33 data.length + listSecs33 data.length) :
    ∃ m', DImg.writeFile name ftype data m = (.error .notEnoughSpace, m') ∧ Mounted33 m' cs ds ∧ m'.listing = m.listing ∧
      freePool33 m'.bytes = (freePool33 m.bytes).drop (dataSecs33 data.length) := by
  obtain ⟨c, e⟩ := mounted33_iff.mp hm
  generalize m.bytes = b at c e h h'
  subst e
  obtain ⟨b', h1, v⟩ := write33_noList c (name := name) (ftype := ftype) h h'
  exact ⟨_, h1, mounted33_mount (vtocLess_consistent c v), vtocLess_listing c v, v.pool⟩

/-- Where C13 fails: a name with a character above 0x7f raises `ValueError` and all sectors of the file are lost. -/
theorem C13_leak_name {m : DImg} {cs ds} {name data : Bytes} (ftype : Nat) (hm : Mounted33 m cs ds) (hne : data ≠ [])
    (ha : ¬ Ascii33 name) (h : dataSecs33 data.length + listSecs33 data.length ≤ (freePool33 m.bytes).length) :
    ∃ m', DImg.writeFile name ftype data m = (.error .valueError, m') ∧ Mounted33 m' cs ds ∧ m'.listing = m.listing ∧
      freePool33 m'.bytes = (freePool33 m.bytes).drop (dataSecs33 data.length + listSecs33 data.length) := by
  obtain ⟨c, e⟩ := mounted33_iff.mp hm
  generalize m.bytes = b at c e h
  subst e
  obtain ⟨b', h1, v⟩ := write33_nonAscii c (ftype := ftype) hne ha h
  exact ⟨_, h1, mounted33_mount (vtocLess_consistent c v), vtocLess_listing c v, v.pool⟩

/-- **C13 is false.** On the blank volume (496 free sectors) 496 sectors of data leave no room for the five track/sector
lists: `NotEnoughSpaceOnDisk`, and afterwards not a single sector is free although no file is listed. -/
theorem C13_refuted : ∃ m m' name data, Mounted33 m catBlank33 [] ∧ DImg.writeFile name 4 data m = (.error .notEnoughSpace, m') ∧
    m'.bytes ≠ m.bytes ∧ (freePool33 m.bytes).length = 496 ∧ freePool33 m'.bytes = [] ∧ m'.listing = [] := by
  have hp := template33_pool blank33_template
  have hb0 : (mount33 blank33 []).bytes = blank33 := mount33_bytes _ _
  have hp' : (freePool33 (mount33 blank33 []).bytes).length = 496 := by rw [hb0]; exact hp
  have hl : (List.replicate 126976 (1 : UInt8)).length = 126976 := List.length_replicate
  have hd : dataSecs33 126976 = 496 := by decide
  have hs : listSecs33 126976 = 5 := by decide
  obtain ⟨m', h1, h2, h3, h4⟩ := C13_leak_lists [0x42] (List.replicate 126976 1) 4 mounted_blank33
    (by rw [hl, hd, hp']; exact Nat.le_refl _) (by rw [hl, hd, hs, hp']; omega)
  have h5 : freePool33 m'.bytes = [] := by
    rw [h4, hl, hd]
    exact List.drop_eq_nil_of_le (by rw [hp']; exact Nat.le_refl _)
  refine ⟨_, m', _, _, mounted_blank33, h1, ?_, hp', h5, ?_⟩
  · intro hb
    rw [hb] at h5
    rw [h5] at hp'
    cases hp'
  · rw [h3]; rfl

/-- C50, DOS 3.3: writing an empty file raises `IndexError` and changes nothing; the volume stays usable. -/
theorem C50_dos33_empty_write {m : DImg} {cs ds} (name : Bytes) (ftype : Nat) (hm : Mounted33 m cs ds) :
    DImg.writeFile name ftype [] m = (.error .indexError, m) := by
  obtain ⟨c, e⟩ := mounted33_iff.mp hm
  generalize m.bytes = b at c e
  subst e
  exact write33_empty c

/-- C51, DOS 3.3 (partial): with a full catalog (seven live entries in every catalog sector but the last) a new file raises
`NoSpaceInDirectory` and keeps all files, but against the claim its sectors are lost from the pool. -/
theorem C51_dos33_full_catalog_partial {m : DImg} {cs ds} {name data : Bytes} {ftype : Nat} (hm : Mounted33 m cs ds) (hne : data ≠ [])
    (ha : Ascii33 name) (ht : ftype < 128) (hs : 7 * (cs.length - 1) ≤ m.files.length)
    (h : dataSecs33 data.length + listSecs33 data.length ≤ (freePool33 m.bytes).length) :
    ∃ m', DImg.writeFile name ftype data m = (.error .noSpaceInDirectory, m') ∧ Mounted33 m' cs ds ∧ m'.listing = m.listing ∧
      (∀ n, m'.findFile n = m.findFile n) ∧
      freePool33 m'.bytes = (freePool33 m.bytes).drop (dataSecs33 data.length + listSecs33 data.length) ∧ m'.bytes ≠ m.bytes := by
  have hm0 := hm
  obtain ⟨c, e⟩ := mounted33_iff.mp hm
  generalize m.bytes = b at c e h
  subst e
  obtain ⟨b', h1, v⟩ := write33_catFull c hne ha ht hs h
  have hm' : Mounted33 (mount33 b' ds) cs ds := mounted33_mount (vtocLess_consistent c v)
  refine ⟨_, h1, hm', vtocLess_listing c v, find33_same (mounted33_nodup hm0) (mounted33_nodup hm') (vtocLess_listing c v), v.pool, ?_⟩
  intro hb
  have hb : b' = b := hb
  have hp := congrArg List.length v.pool
  rw [hb, List.length_drop] at hp
  have : 0 < data.length := List.length_pos_iff.mpr hne
  have : 0 < dataSecs33 data.length := by unfold dataSecs33; omega
  omega

/-- C09 for DOS 3.3: `shred(fill)` fills each free sector, changes no other sector, keeps the files and the pool. -/
theorem C09_dos33_shred {m : DImg} {cs ds} (fill : Nat) (hm : Mounted33 m cs ds) :
    ∃ m', DImg.shred fill m = (.ok (), m') ∧ DImg.open m'.bytes = .ok m' ∧ m'.bytes.length = m.bytes.length ∧
      (∀ s, IsFree33 m.bytes s → slice m'.bytes (256 * s) (256 * s + 256) = List.replicate 256 (UInt8.ofNat fill)) ∧
      (∀ s, ¬ IsFree33 m.bytes s → slice m'.bytes (256 * s) (256 * s + 256) = slice m.bytes (256 * s) (256 * s + 256)) ∧
      m'.listing = m.listing ∧ freePool33 m'.bytes = freePool33 m.bytes := by
  obtain ⟨c, e⟩ := mounted33_iff.mp hm
  generalize m.bytes = b at c e
  subst e
  obtain ⟨b', h1, h2, h3, h4, h5⟩ := shred33_mounted c fill
  refine ⟨_, h1, (mounted33_mount h2).1, h2.size.trans c.size.symm, h4, h5, h3, ?_⟩
  have : sec33 b' 272 = sec33 b 272 := h5 272 (fun hf => (c.free 272 hf).2.2.1 rfl)
  unfold freePool33 IsFree33
  show List.filter (fun s => decide (s < 800 ∧ (256 * ((sec33 b' 272).getD (0x38 + 4 * (s / 16)) 0).toNat +
    ((sec33 b' 272).getD (0x39 + 4 * (s / 16)) 0).toNat).testBit (s % 16) = true)) (List.range 800) = _
  rw [this]
  rfl

/-! ### concrete cases -/

/-- `A1` … -/
def numName (i : Nat) : Bytes := [UInt8.ofNat (65 + i / 10), UInt8.ofNat (48 + i % 10)]

theorem numName_ok : ∀ i, i < 100 → norm33 (numName i) = numName i ∧ (∀ c ∈ (numName i).take 30, c < 0x80) ∧
    ∀ j, j < i → numName j ≠ numName i := by decide +kernel

/-- The blank volume can be filled with `n` files of `len` bytes (here up to 98 of them, the capacity of its catalog). -/
theorem fill33 (len : Nat) (hl : len ≠ 0) : ∀ n, n ≤ 98 → (dataSecs33 len + listSecs33 len) * n ≤ 496 →
    ∃ m ds, Mounted33 m catBlank33 ds ∧ m.files.length = n ∧
      (freePool33 m.bytes).length = 496 - (dataSecs33 len + listSecs33 len) * n ∧ (∀ x ∈ m.names, ∃ j, j < n ∧ x = numName j) ∧
      ∀ j, j < n → m.findFile (numName j) = .ok (padded33 (List.replicate len (UInt8.ofNat j))) := by
  intro n
  induction n with
  | zero =>
    intro _ _
    refine ⟨_, [], mounted_blank33, rfl, ?_, (fun x hx => nomatch hx), (fun j hj => by omega)⟩
    rw [mount33_bytes, template33_pool blank33_template, Nat.mul_zero]
  | succ n ih =>
    intro hn hk
    rw [Nat.mul_succ] at hk
    obtain ⟨m, ds, h1, h2, h3, h4, h5⟩ := ih (by omega) (by omega)
    obtain ⟨c1, c2, c3⟩ := numName_ok n (by omega)
    have hnew : numName n ∉ m.names := by
      intro hx
      obtain ⟨j, hj, he⟩ := h4 _ hx
      exact c3 j hj he.symm
    have hlen : (List.replicate len (UInt8.ofNat n)).length = len := List.length_replicate
    have hok := (C10_write_succeeds_iff (name := numName n) (data := List.replicate len (UInt8.ofNat n)) (ftype := 4) h1 (by omega) (by omega)
      (by rw [c1]; exact hnew)).mpr ⟨fun h => hl (by rw [h] at hlen; exact hlen.symm), c2, by
        rw [h2]; show n < 7 * (15 - 1); omega, by rw [hlen, h3]; omega⟩
    generalize hw : DImg.writeFile (numName n) 4 (List.replicate len (UInt8.ofNat n)) m = r at hok
    obtain ⟨r1, m'⟩ := r
    simp only at hok
    subst hok
    obtain ⟨ds', L1, L2, k1, k2, k3, k4, k5, _⟩ := write33_ok h1 (by omega) (by omega) (by rw [c1]; exact hnew) hw
    obtain ⟨g1, _⟩ := C10_write_then_read h1 c1 (by omega) (by omega) hnew hw
    obtain ⟨_, g2, _⟩ := C11_write_frame h1 c1 (by omega) (by omega) hnew hw
    have hl1 : L1.length + L2.length = n := by
      rw [← List.length_append, ← k2, ← h2]; unfold DImg.listing; rw [List.length_map]
    refine ⟨m', ds', k1, ?_, ?_, ?_, ?_⟩
    · have : m'.listing.length = n + 1 := by rw [k3, List.length_append, List.length_cons]; omega
      unfold DImg.listing at this
      rw [List.length_map] at this
      exact this
    · rw [k5, List.length_drop, hlen, h3, Nat.mul_succ]; omega
    · intro x hx
      rw [← listing33_names, k3, c1] at hx
      have hold : ∀ y, y ∈ L1.map (·.1) ∨ y ∈ L2.map (·.1) → y ∈ m.names := by
        intro y hy
        rw [← listing33_names, k2, List.map_append, List.mem_append]; exact hy
      rw [List.map_append, List.map_cons, List.mem_append, List.mem_cons] at hx
      rcases hx with hx | hx | hx
      · obtain ⟨j, hj, he⟩ := h4 x (hold x (Or.inl hx)); exact ⟨j, by omega, he⟩
      · exact ⟨n, by omega, hx⟩
      · obtain ⟨j, hj, he⟩ := h4 x (hold x (Or.inr hx)); exact ⟨j, by omega, he⟩
    · intro j hj
      by_cases h : j = n
      · subst h; exact g1
      · rw [g2 _ (c3 j (by omega))]; exact h5 j (by omega)

/-- C10-C12 on a concrete volume: three files of 40000 bytes (157 data sectors, two track/sector lists each); the second
reads back, deleting it leaves the other two. -/
example : ∃ m m' cs ds, Mounted33 m cs ds ∧ m.findFile (numName 1) = .ok (padded33 (List.replicate 40000 1)) ∧
    DImg.deleteFile (numName 1) m = (.ok (), m') ∧ m'.findFile (numName 1) = .error .fileNotFound ∧
    m'.findFile (numName 2) = .ok (padded33 (List.replicate 40000 2)) := by
  obtain ⟨m, ds, h1, _, _, _, h5⟩ := fill33 40000 (by omega) 3 (by omega) (by decide)
  have hin : numName 1 ∈ m.names := by
    refine Classical.byContradiction fun h => ?_
    have := (find33_missing h).2
    rw [h5 1 (by omega)] at this
    cases this
  obtain ⟨m', ds', k1, k2, k3, _, _, k6, _⟩ := C12_delete h1 hin
  exact ⟨m, m', _, ds, h1, h5 1 (by omega), k1, k3, by rw [k6 (numName 2) (by decide)]; exact h5 2 (by omega)⟩

/-- C51 on a concrete volume: 98 files fill the catalog, the next write raises `NoSpaceInDirectory` and loses two sectors. -/
theorem C51_dos33_refuted : ∃ m m' cs ds, Mounted33 m cs ds ∧ m.files.length = 98 ∧ (freePool33 m.bytes).length = 300 ∧
    DImg.writeFile [0x42] 4 [1] m = (.error .noSpaceInDirectory, m') ∧ m'.bytes ≠ m.bytes ∧ (freePool33 m'.bytes).length = 298 := by
  obtain ⟨m, ds, h1, h2, h3, _⟩ := fill33 1 (by omega) 98 (by omega) (by decide)
  have h3 : (freePool33 m.bytes).length = 300 := h3
  obtain ⟨m', k1, _, _, _, k5, k6⟩ := C51_dos33_full_catalog_partial (name := [0x42]) (data := [1]) (ftype := 4) h1 (by simp) (by unfold Ascii33; decide) (by omega)
    (by rw [h2]; decide) (by rw [h3]; decide)
  refine ⟨m, m', _, ds, h1, h2, h3, k1, k6, ?_⟩
  rw [k5, List.length_drop, h3]; decide

/-- the other failing cases on the blank volume -/
example : ∃ m', DImg.writeFile [0xc1] 4 [1, 2, 3] (mount33 blank33 []) = (.error .valueError, m') ∧
    (freePool33 m'.bytes).length = 494 := by
  obtain ⟨m', k1, _, _, k4⟩ := C13_leak_name (name := [0xc1]) (data := [1, 2, 3]) 4 mounted_blank33 (by simp) (by unfold Ascii33; decide)
    (by rw [mount33_bytes, template33_pool blank33_template]; decide)
  refine ⟨m', k1, ?_⟩
  rw [k4, List.length_drop, mount33_bytes, template33_pool blank33_template]; decide

example : DImg.writeFile [0x42] 4 [] (mount33 blank33 []) = (.error .indexError, mount33 blank33 []) :=
  C50_dos33_empty_write _ _ mounted_blank33

example : ∃ m', DImg.shred 0xe5 (mount33 blank33 []) = (.ok (), m') ∧ slice m'.bytes (256 * 48) (256 * 48 + 256) = List.replicate 256 0xe5 := by
  obtain ⟨m', h, _, _, h4, _⟩ := C09_dos33_shred 0xe5 mounted_blank33
  refine ⟨m', h, h4 48 ?_⟩
  rw [mount33_bytes, template33_free blank33_template]; omega

end Atr
