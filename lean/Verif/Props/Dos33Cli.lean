import Verif.Lemmas.CliGen
import Verif.Props.Cli
import Verif.Props.Dos33Files
/-!
# C14: command-line histories on DOS 3.3 images
-/
namespace Atr

/-- the image `m` has the catalog sectors `cs` and lists exactly the files of `M`, contents filled up to whole sectors -/
def Rep33 (cs : List Nat) (m : DImg) (M : FMap) : Prop :=
  ∃ ds, Mounted33 m cs ds ∧ (m.listing.map fun x => (x.1, x.2.2)).Perm (M.map fun x => (x.1, .ok (padded33 x.2)))

/-- the image file `b` is a consistent DOS 3.3 volume with catalog sectors `cs` whose listed files are exactly the entries of
`M`, contents filled up to whole sectors -/
def Holds33 (cs : List Nat) (b : Bytes) (M : FMap) : Prop :=
  ∃ m ds, DImg.open b = .ok m ∧ Mounted33 m cs ds ∧ m.bytes = b ∧
    (m.listing.map fun x => (x.1, x.2.2)).Perm (M.map fun x => (x.1, .ok (padded33 x.2)))

/-- files that can be stored: canonical ASCII names, data not empty -/
def Fits33 (n d : Bytes) : Prop := norm33 n = n ∧ Ascii33 n ∧ d ≠ []

theorem holds33_iff {cs b M} (t : Char) : Holds33 cs b M ↔ HoldsG (dos33Driver t) (Rep33 cs) b M := by
  constructor
  · rintro ⟨m, ds, h1, h2, h3, h4⟩; exact ⟨m, h1, ⟨ds, h2, h4⟩, h3⟩
  · rintro ⟨m, h1, ⟨ds, h2, h4⟩, h3⟩; exact ⟨m, ds, h1, h2, h3, h4⟩

theorem Rep33.names {cs m M} (r : Rep33 cs m M) : m.names.Perm M.keys := by
  obtain ⟨ds, h1, h2⟩ := r
  have := h2.map (·.1)
  rw [List.map_map, List.map_map] at this
  rw [← listing33_names]
  exact this

theorem Rep33.nodup {cs m M} (r : Rep33 cs m M) : M.keys.Nodup := by
  obtain ⟨ds, h1, _⟩ := id r
  exact r.names.nodup (mounted33_nodup h1)

theorem Rep33.length {cs m M} (r : Rep33 cs m M) : m.files.length = M.length := by
  have := r.names.length_eq
  unfold DImg.names FMap.keys at this
  simpa using this

theorem textToType33_ok {t : Char} (ht : t ≠ 'T') : textToType33 t < 128 ∧ textToType33 t ≠ 0 := by
  unfold textToType33
  split <;> first | exact absurd rfl ht | decide

theorem sim33 {t : Char} (ht : t ≠ 'T') (cs : List Nat) : Sim (dos33Driver t) (Rep33 cs) Fits33 (7 * (cs.length - 1)) where
  load := by
    rintro m M ⟨ds, h, _⟩
    exact h.1
  find_mem := by
    intro m M n r hn
    obtain ⟨d, hd, he⟩ := List.mem_map.mp (r.names.symm.subset hn)
    show (m.findDirent n).map _ = _
    unfold DImg.findDirent
    cases hf : m.files.find? (fun d => d.filename == n) with
    | none =>
      rw [List.find?_eq_none] at hf
      have := hf d hd
      simp [he] at this
    | some d => rfl
  find_not := by
    intro m M n r hn
    show (m.findDirent n).map _ = _
    rw [(find33_missing (fun hc => hn (r.names.subset hc))).1]
    rfl
  delete := by
    intro m M n r hn
    obtain ⟨ds, h1, h2⟩ := id r
    obtain ⟨m', ds', k1, k2, _, _, ⟨L1, L2, x, k4, k5⟩, _⟩ := C12_delete h1 (r.names.symm.subset hn)
    refine ⟨m', k1, ds', k2, ?_⟩
    have hnd := mounted33_nodup h1
    rw [← listing33_names, k4] at hnd
    have hf := h2.filter (fun p => p.1 != n)
    rw [k4, List.map_append, List.map_cons, filter_keys (by simpa [Function.comp_def] using hnd), List.filter_map] at hf
    rw [k5, List.map_append]
    exact hf
  write := by
    intro m M n d r hn hp hs
    obtain ⟨ds, h1, h2⟩ := id r
    obtain ⟨p1, p2, p3⟩ := hp
    obtain ⟨t1, t2⟩ := textToType33_ok ht
    have hnew : n ∉ m.names := fun hx => hn (r.names.subset hx)
    have hnew' : norm33 n ∉ m.names := by rw [p1]; exact hnew
    show (∃ m', DImg.writeFile n (textToType33 t) d m = (.ok (), m') ∧ _) ∨ ∃ m', DImg.writeFile n (textToType33 t) d m = _
    by_cases hk : dataSecs33 d.length + listSecs33 d.length ≤ (freePool33 m.bytes).length
    · left
      have hok := (C10_write_succeeds_iff (name := n) (data := d) h1 t1 t2 hnew').mpr ⟨p3, p2, by rw [r.length]; exact hs, hk⟩
      generalize hw : DImg.writeFile n (textToType33 t) d m = q at hok
      obtain ⟨q1, m'⟩ := q
      simp only at hok
      subst hok
      obtain ⟨ds', L1, L2, k1, k2, k3, _⟩ := write33_ok h1 t1 t2 hnew' hw
      refine ⟨m', rfl, ds', k1, ?_⟩
      rw [k3, p1, List.map_append, List.map_cons, List.map_cons]
      rw [k2, List.map_append] at h2
      exact List.perm_middle.trans (h2.cons _)
    · right
      by_cases hk' : dataSecs33 d.length ≤ (freePool33 m.bytes).length
      · obtain ⟨m', k1, _⟩ := C13_leak_lists n d (textToType33 t) h1 hk' (by omega)
        exact ⟨m', k1⟩
      · exact ⟨m, C13_data_too_long n d _ h1 (by omega)⟩
  shred := by
    rintro m M ⟨ds, h1, h2⟩
    obtain ⟨c, e⟩ := mounted33_iff.mp h1
    generalize m.bytes = b at c e
    subst e
    obtain ⟨b', k1, k2, k3, _⟩ := shred33_mounted c 0
    refine ⟨mount33 b' ds, ?_, ds, mounted33_mount k2, ?_⟩
    · have e : (dos33Driver t).shred = DImg.shred 0 := rfl
      rw [e]
      exact k1
    · rw [k3]; exact h2

/-- run a history; each command has options and a file type -/
def runHistory33 (cs : List (Char × Opts × Cmd)) (b : Bytes) : List (Except Err Unit) × Bytes :=
  runHistoryD (cs.map fun x => (dos33Driver x.1, x.2)) b

/-- **C14.** Any history of `add` / `remove` / shred commands (any non-text file types) on a consistent DOS 3.3 image file
acts on the files like the operations of a map; a command that fails leaves the map as it was.  As in C05, `specHistory`
follows the code in saving nothing when the last file of an unforced `add` is skipped. -/
theorem C14_history {cat b M} (cs : List (Char × Opts × Cmd)) (hh : Holds33 cat b M) (ht : ∀ x ∈ cs, x.1 ≠ 'T')
    (hl : HistoryLegalG Fits33 (7 * (cat.length - 1)) M (cs.map (·.2)) (runHistory33 cs b).1) :
    Holds33 cat (runHistory33 cs b).2 (specHistory M (cs.map (·.2)) (runHistory33 cs b).1) := by
  have hmap : (cs.map fun x => (dos33Driver x.1, x.2)).map (·.2) = cs.map (·.2) := by rw [List.map_map]; rfl
  have := history_sim (D0 := dos33Driver 'B') (R := Rep33 cat) (P := Fits33) (cap := 7 * (cat.length - 1))
    (cs.map fun x => (dos33Driver x.1, x.2)) b M
    (fun y hy => by
      obtain ⟨x, hx, rfl⟩ := List.mem_map.mp hy
      exact ⟨sim33 (ht x hx) cat, rfl, rfl⟩)
    ((holds33_iff 'B').mp hh) (by rw [hmap]; exact hl)
  rw [hmap] at this
  exact (holds33_iff 'B').mpr this

/-- the only way a legal command can fail is a full disk, and the image file is then untouched -/
theorem C14_only_full {cat b M} {t : Char} {o : Opts} {c : Cmd} (ht : t ≠ 'T') (hh : Holds33 cat b M)
    (hl : c.LegalG Fits33 (7 * (cat.length - 1)) o M) :
    (c.run (dos33Driver t) o b).1 = .ok () ∨
      ((c.run (dos33Driver t) o b).1 = .error .notEnoughSpace ∧ (c.run (dos33Driver t) o b).2 = b) :=
  (run_sim (sim33 ht cat) ((holds33_iff t).mp hh) hl).2

/-- `Holds33` in terms of what a user can do: open the file and look up any name -/
theorem C14_lookup {cat b M} (hh : Holds33 cat b M) (n : Bytes) :
    ∃ m, DImg.open b = .ok m ∧ (∀ x, m.findFile n = .ok x ↔ ∃ d, M.get n = some d ∧ x = padded33 d) ∧
      (m.findFile n = .error .fileNotFound ↔ M.get n = none) := by
  obtain ⟨m, ds, h1, h2, h3, h4⟩ := hh
  have r : Rep33 cat m M := ⟨ds, h2, h4⟩
  have key : (∃ d, M.get n = some d ∧ m.findFile n = .ok (padded33 d)) ∨ (M.get n = none ∧ m.findFile n = .error .fileNotFound) := by
    cases hg : M.get n with
    | some d =>
      left
      have hmem : (n, d) ∈ M := by
        unfold FMap.get at hg
        rw [List.lookup_eq_some_iff] at hg
        obtain ⟨l1, l2, he, _⟩ := hg
        rw [he]; simp
      have := h4.symm.subset (List.mem_map.mpr ⟨(n, d), hmem, rfl⟩)
      obtain ⟨⟨n', t, x⟩, hx, he⟩ := List.mem_map.mp this
      cases he
      exact ⟨d, rfl, find33_of_listing (mounted33_nodup h2) hx⟩
    | none =>
      right
      refine ⟨rfl, (find33_missing ?_).2⟩
      intro hx
      obtain ⟨x, hx, he⟩ := List.mem_map.mp (r.names.subset hx)
      unfold FMap.get at hg
      rw [List.lookup_eq_none_iff] at hg
      have := hg x hx
      simp [he] at this
  refine ⟨m, h1, ?_⟩
  rcases key with ⟨d, k1, k2⟩ | ⟨k1, k2⟩
  · rw [k1, k2]
    refine ⟨fun x => ⟨fun h => ⟨d, rfl, by injection h with h; exact h.symm⟩, fun ⟨d', h, hx⟩ => ?_⟩, by simp⟩
    injection h with h; rw [hx, h]
  · rw [k1, k2]; simp

/-- every consistent volume has such a map: the names with the contents read -/
theorem C14_initial {m : DImg} {cat ds} (hm : Mounted33 m cat ds) : ∃ M, Holds33 cat m.bytes M := by
  have hpad : ∀ (x : Bytes), x.length % 256 = 0 → padded33 x = x := by
    intro x hx
    unfold padded33
    rw [hx]
    exact List.append_nil _
  have hall : ∀ x ∈ m.listing, ∃ data, x.2.2 = .ok data ∧ data.length % 256 = 0 := by
    obtain ⟨c, e⟩ := mounted33_iff.mp hm
    generalize hb : m.bytes = b at c e
    subst e
    intro x hx
    obtain ⟨d, hd, rfl⟩ := List.mem_map.mp (show x ∈ (ds.filter (fun d => !d.deleted)).map (view33 b) from hx)
    obtain ⟨h1, h2⟩ := List.mem_filter.mp hd
    obtain ⟨ts, map, k1, k2, k3, k4, k5⟩ := c.contents h1 (by simpa using h2)
    refine ⟨_, k5, ?_⟩
    have hl : ∀ s ∈ map, (sec33 b s).length = 256 := by
      intro s hs
      have := (k4 s (by simp [hs])).1.2.1
      unfold sec33
      rw [length_slice, c.size]; omega
    clear k1 k2 k3 k4 k5
    induction map with
    | nil => rfl
    | cons s map ih =>
      rw [List.flatMap_cons, List.length_append, hl s (by simp)]
      have := ih (fun s hs => hl s (List.mem_cons_of_mem _ hs))
      omega
  have : ∀ L : List (Bytes × Nat × Except Err Bytes), (∀ x ∈ L, ∃ data, x.2.2 = .ok data ∧ data.length % 256 = 0) →
      ∃ M : FMap, L.map (fun x => (x.1, x.2.2)) = M.map fun x => (x.1, .ok (padded33 x.2)) := by
    intro L
    induction L with
    | nil => intro _; exact ⟨[], rfl⟩
    | cons x L ih =>
      intro h
      obtain ⟨M, hM⟩ := ih (fun y hy => h y (List.mem_cons_of_mem _ hy))
      obtain ⟨data, h1, h2⟩ := h x List.mem_cons_self
      exact ⟨(x.1, data) :: M, by rw [List.map_cons, List.map_cons, hM, h1, hpad data h2]⟩
  obtain ⟨M, hM⟩ := this _ hall
  exact ⟨M, m, ds, hm.1, hm, rfl, by rw [hM]⟩

/-! ### conditions that can be checked beforehand -/

def Cmd.Within33 (N : List Bytes) : Cmd → Prop
  | .add fs => ∀ x ∈ fs, x.1 ∈ N ∧ Fits33 x.1 x.2
  | _ => True

theorem addLegal_within33 {N : List Bytes} {cap : Nat} (hN : N.length ≤ cap) (force : Bool) : ∀ (fs : List (Bytes × Bytes)) (M : FMap), M.Ok N →
    (∀ x ∈ fs, x.1 ∈ N ∧ Fits33 x.1 x.2) → AddLegalG Fits33 cap force M fs := by
  intro fs
  induction fs with
  | nil => intro M _ _; trivial
  | cons f fs ih =>
    intro M h hx
    obtain ⟨n, d⟩ := f
    obtain ⟨h1, h2⟩ := hx _ List.mem_cons_self
    refine ⟨h2, ?_, ih _ (h.addOne force d h1) (fun x hq => hx x (List.mem_cons_of_mem _ hq))⟩
    have hd := h.del n
    have := nodup_subset_length (n :: (M.del n).keys) N (List.nodup_cons.mpr ⟨fun hx => (mem_keys_del.mp hx).2 rfl, hd.1⟩)
      (fun k hk => by
        rcases List.mem_cons.mp hk with rfl | hk
        · exact h1
        · exact hd.2 k hk)
    simp only [List.length_cons, FMap.keys, List.length_map] at this
    omega

theorem ok_specR33 {N} {M : FMap} (h : M.Ok N) {o : Opts} {c : Cmd} (hc : c.Within33 N) (r : Except Err Unit) : (c.specR o M r).Ok N := by
  cases r with
  | error e => exact h
  | ok _ =>
    show (c.spec o M).Ok N
    cases c with
    | shred => exact h
    | add fs =>
      unfold Cmd.spec; simp only
      split
      · exact h
      · exact FMap.Ok.addAll _ _ _ h (fun x hx => (hc x hx).1)
    | remove ns =>
      unfold Cmd.spec; simp only
      split
      · exact h
      · exact FMap.Ok.dels _ _ h

theorem historyLegal_within33 {N : List Bytes} {cap : Nat} (hN : N.length ≤ cap) : ∀ (cs : List (Opts × Cmd)) (M : FMap) (rs : List (Except Err Unit)),
    M.Ok N → (∀ x ∈ cs, x.2.Within33 N) → HistoryLegalG Fits33 cap M cs rs := by
  intro cs
  induction cs with
  | nil => intro M rs _ _; trivial
  | cons c cs ih =>
    intro M rs h hw
    obtain ⟨o, c⟩ := c
    cases rs with
    | nil => trivial
    | cons r rs =>
      have hc := hw (o, c) List.mem_cons_self
      refine ⟨?_, ih _ rs (ok_specR33 h hc r) (fun x hx => hw x (List.mem_cons_of_mem _ hx))⟩
      cases c with
      | add fs => exact addLegal_within33 hN _ _ _ h hc
      | remove ns => trivial
      | shred => trivial

/-- **C14** with conditions that can be checked beforehand: histories of any length whose adds are forced or of one file
each, over as many names as the catalog holds, act exactly like map operations. -/
theorem C14_plain {cat b M} {N : List Bytes} (cs : List (Char × Opts × Cmd)) (hh : Holds33 cat b M)
    (hN : N.length ≤ 7 * (cat.length - 1)) (hM : ∀ k ∈ M.keys, k ∈ N)
    (hw : ∀ x ∈ cs, x.1 ≠ 'T' ∧ x.2.2.Within33 N ∧ x.2.2.Single x.2.1) :
    Holds33 cat (runHistory33 cs b).2 (plainHistory M (cs.map (·.2)) (runHistory33 cs b).1) := by
  rw [← specHistory_plain (cs.map (·.2)) M _ (fun y hy => by
    obtain ⟨x, hx, rfl⟩ := List.mem_map.mp hy; exact (hw x hx).2.2)]
  refine C14_history cs hh (fun x hx => (hw x hx).1) (historyLegal_within33 hN _ M _ ⟨?_, hM⟩ (fun y hy => by
    obtain ⟨x, hx, rfl⟩ := List.mem_map.mp hy; exact (hw x hx).2.1))
  obtain ⟨m, ds, _, h2, _, h4⟩ := hh
  exact Rep33.nodup ⟨ds, h2, h4⟩

/-- the blank volume holds the empty map -/
theorem holds_blank33 : Holds33 catBlank33 blank33 [] := by
  have h := mounted_blank33
  refine ⟨mount33 blank33 [], [], ?_, h, mount33_bytes _ _, List.Perm.refl _⟩
  have h1 := h.1
  rw [mount33_bytes] at h1
  exact h1

def sampleHistory33 : List (Char × Opts × Cmd) :=
  [('B', {}, .add [(nameA, dataA)]), ('A', {}, .add [(nameB, dataB)]), ('B', {}, .add [(nameA, dataB)]),
   ('I', { force := true }, .add [(nameA, dataB), (nameB, dataA)]), ('B', {}, .remove [nameB, nameB]), ('B', {}, .shred)]

example : Holds33 catBlank33 (runHistory33 sampleHistory33 blank33).2
      (plainHistory [] (sampleHistory33.map (·.2)) (runHistory33 sampleHistory33 blank33).1) ∧
    plainHistory [] (sampleHistory33.map (·.2)) (List.replicate 6 (.ok ())) = [(nameA, dataB)] := by
  have fA : norm33 nameA = nameA ∧ ∀ c ∈ nameA.take 30, c < 0x80 := by decide
  have fB : norm33 nameB = nameB ∧ ∀ c ∈ nameB.take 30, c < 0x80 := by decide
  have hA : ∀ d : Bytes, d ≠ [] → Fits33 nameA d := fun d hd => ⟨fA.1, fA.2, hd⟩
  have hB : ∀ d : Bytes, d ≠ [] → Fits33 nameB d := fun d hd => ⟨fB.1, fB.2, hd⟩
  refine ⟨C14_plain (N := [nameA, nameB]) _ holds_blank33 (by decide) (fun k hk => by cases hk) ?_, ?_⟩
  · intro x hx
    simp only [sampleHistory33, List.mem_cons, List.not_mem_nil, or_false] at hx
    rcases hx with rfl | rfl | rfl | rfl | rfl | rfl <;>
      simp [Cmd.Within33, Cmd.Single, hA, hB, dataA_ne, dataB_ne]
  · have hab : nameA ≠ nameB := by decide
    have hba : nameB ≠ nameA := by decide
    simp [sampleHistory33, List.replicate, plainHistory, Cmd.plain, FMap.addAll, FMap.addOne, FMap.put, FMap.del, FMap.keys, hab, hba]

end Atr
