import Verif.Lemmas.Cli
import Verif.Props.AtariFiles
/-!
# C05, C37, C38: command-line histories
-/
namespace Atr

/-! ### C05 -/

/-- **C05.** Any history of `add` / `remove` / shred commands on a consistent Atari DOS image file (at most 1279 sectors)
acts on the files like the operations of a map; a command that fails leaves the map as it was.  `specHistory` follows the
code in one point: an `add` without force whose last file is skipped saves nothing (the defect C37); `C05_plain` below is
free of this exception. -/
theorem C05_history {h b M} (cs : List (Opts × Cmd)) (hh : Holds h b M) (hmax : h.maxSectors < 1280)
    (hl : HistoryLegal M cs (runHistory atariDriver cs b).1) :
    Holds h (runHistory atariDriver cs b).2 (specHistory M cs (runHistory atariDriver cs b).1) :=
  history_rep hmax cs b M hh hl

/-- the only way a legal command can fail is a full disk, and the image file is then untouched -/
theorem C05_only_full {h b M} {o : Opts} {c : Cmd} (hh : Holds h b M) (hmax : h.maxSectors < 1280) (hl : c.Legal o M) :
    (c.run atariDriver o b).1 = .ok () ∨
      ((c.run atariDriver o b).1 = .error .notEnoughSpace ∧ (c.run atariDriver o b).2 = b) :=
  (run_rep hh hmax hl).2

/-- `Holds` in terms of what a user can do: open the file and look up any name -/
theorem C05_lookup {h b M} (hh : Holds h b M) (n : Bytes) :
    ∃ m, AImg.open b = .ok m ∧ (∀ d, m.findFile n = .ok d ↔ M.get n = some d) ∧
      (m.findFile n = .error .fileNotFound ↔ M.get n = none) :=
  hh.get n

/-- plain map semantics: no exception at all -/
def Cmd.plain (o : Opts) (M : FMap) (c : Cmd) (r : Except Err Unit) : FMap :=
  match r, o.dryRun, c with
  | .ok _, false, .add fs => M.addAll o.force fs
  | .ok _, false, .remove ns => ns.foldl FMap.del M
  | _, _, _ => M

def plainHistory : FMap → List (Opts × Cmd) → List (Except Err Unit) → FMap
  | M, (o, c) :: cs, r :: rs => plainHistory (c.plain o M r) cs rs
  | M, _, _ => M

/-- adds are either forced or of a single file -/
def Cmd.Single (o : Opts) : Cmd → Prop
  | .add fs => o.force = true ∨ fs.length ≤ 1
  | _ => True

theorem lastSkipped_force : ∀ (fs : List (Bytes × Bytes)) (M : FMap), fs ≠ [] → M.lastSkipped true fs = false := by
  intro fs
  induction fs with
  | nil => intro M h; exact absurd rfl h
  | cons f fs ih =>
    intro M _
    obtain ⟨n, d⟩ := f
    rw [lastSkipped_cons]
    split
    · simp
    · rename_i h; exact ih _ h

theorem specR_plain {o : Opts} {c : Cmd} (hs : c.Single o) (M : FMap) (r : Except Err Unit) : c.specR o M r = c.plain o M r := by
  unfold Cmd.specR Cmd.plain
  cases r with
  | error e => rfl
  | ok _ =>
    cases hd : o.dryRun with
    | true => cases c <;> simp [Cmd.spec, hd]
    | false =>
      cases c with
      | remove ns => simp [Cmd.spec, hd]
      | shred => rfl
      | add fs =>
        simp only [Cmd.spec, hd, Bool.false_or]
        split
        · rename_i hk
          rcases hs with hs | hs
          · cases fs with
            | nil => rfl
            | cons f fs => rw [hs, lastSkipped_force _ _ (by simp)] at hk; cases hk
          · cases fs with
            | nil => rfl
            | cons f fs =>
              cases fs with
              | cons g gs => simp at hs
              | nil =>
                obtain ⟨n, d⟩ := f
                have : n ∈ M.keys ∧ o.force = false := of_decide_eq_true hk
                show M = M.addOne o.force n d
                exact (if_pos this).symm
        · rfl

theorem specHistory_plain : ∀ (cs : List (Opts × Cmd)) (M : FMap) (rs : List (Except Err Unit)),
    (∀ x ∈ cs, x.2.Single x.1) → specHistory M cs rs = plainHistory M cs rs := by
  intro cs
  induction cs with
  | nil => intro M rs _; rfl
  | cons c cs ih =>
    intro M rs hs
    obtain ⟨o, c⟩ := c
    cases rs with
    | nil => rfl
    | cons r rs =>
      show specHistory (c.specR o M r) cs rs = plainHistory (c.plain o M r) cs rs
      rw [specR_plain (hs (o, c) List.mem_cons_self), ih _ _ (fun x hx => hs x (List.mem_cons_of_mem _ hx))]

/-- names and data of every `add` come from a fixed supply of at most 64 canonical names, data is not empty -/
def Cmd.Within (N : List Bytes) : Cmd → Prop
  | .add fs => ∀ x ∈ fs, x.1 ∈ N ∧ Canon83 x.1 ∧ x.2 ≠ []
  | _ => True

theorem nodup_subset_length : ∀ (l N : List Bytes), l.Nodup → (∀ x ∈ l, x ∈ N) → l.length ≤ N.length := by
  intro l
  induction l with
  | nil => intro N _ _; exact Nat.zero_le _
  | cons a l ih =>
    intro N hnd hs
    have ha := hs a List.mem_cons_self
    have := ih (N.erase a) (List.nodup_cons.mp hnd).2 (fun x hx => by
      have hxa : x ≠ a := fun he => (List.nodup_cons.mp hnd).1 (he ▸ hx)
      exact (List.mem_erase_of_ne hxa).mpr (hs x (List.mem_cons_of_mem _ hx)))
    have hle := List.length_erase_of_mem ha
    have hpos := List.length_pos_of_mem ha
    simp only [List.length_cons]; omega

/-- distinct names, all from the supply -/
def FMap.Ok (N : List Bytes) (M : FMap) : Prop := M.keys.Nodup ∧ ∀ k ∈ M.keys, k ∈ N

theorem FMap.Ok.del {N} {M : FMap} (h : M.Ok N) (n : Bytes) : (M.del n).Ok N := by
  refine ⟨?_, fun k hk => h.2 k (mem_keys_del.mp hk).1⟩
  have : (M.del n).keys.Sublist M.keys := (List.filter_sublist).map _
  exact this.nodup h.1

theorem FMap.Ok.addOne {N} {M : FMap} (h : M.Ok N) (force : Bool) {n : Bytes} (d : Bytes) (hn : n ∈ N) : (M.addOne force n d).Ok N := by
  unfold FMap.addOne
  split
  · exact h
  · have := h.del n
    refine ⟨List.nodup_cons.mpr ⟨fun hx => (mem_keys_del.mp hx).2 rfl, this.1⟩, ?_⟩
    intro k hk
    rcases List.mem_cons.mp hk with rfl | hk
    · exact hn
    · exact this.2 k hk

theorem FMap.Ok.addAll {N} (force : Bool) : ∀ (fs : List (Bytes × Bytes)) (M : FMap), M.Ok N → (∀ x ∈ fs, x.1 ∈ N) →
    (M.addAll force fs).Ok N := by
  intro fs
  induction fs with
  | nil => intro M h _; exact h
  | cons f fs ih =>
    intro M h hx
    exact ih _ (h.addOne force f.2 (hx f List.mem_cons_self)) (fun x hq => hx x (List.mem_cons_of_mem _ hq))

theorem FMap.Ok.dels {N} : ∀ (ns : List Bytes) (M : FMap), M.Ok N → (ns.foldl FMap.del M).Ok N := by
  intro ns
  induction ns with
  | nil => intro M h; exact h
  | cons n ns ih => intro M h; exact ih _ (h.del n)

theorem addLegal_within {N : List Bytes} (hN : N.length ≤ 64) (force : Bool) : ∀ (fs : List (Bytes × Bytes)) (M : FMap), M.Ok N →
    (∀ x ∈ fs, x.1 ∈ N ∧ Canon83 x.1 ∧ x.2 ≠ []) → AddLegal force M fs := by
  intro fs
  induction fs with
  | nil => intro M _ _; trivial
  | cons f fs ih =>
    intro M h hx
    obtain ⟨n, d⟩ := f
    obtain ⟨h1, h2, h3⟩ := hx _ List.mem_cons_self
    refine ⟨h2, h3, ?_, ih _ (h.addOne force d h1) (fun x hq => hx x (List.mem_cons_of_mem _ hq))⟩
    have hd := h.del n
    have := nodup_subset_length (n :: (M.del n).keys) N (List.nodup_cons.mpr ⟨fun hx => (mem_keys_del.mp hx).2 rfl, hd.1⟩)
      (fun k hk => by
        rcases List.mem_cons.mp hk with rfl | hk
        · exact h1
        · exact hd.2 k hk)
    simp only [List.length_cons, FMap.keys, List.length_map] at this
    omega

theorem FMap.Ok.specR {N} {M : FMap} (h : M.Ok N) {o : Opts} {c : Cmd} (hc : c.Within N) (r : Except Err Unit) : (c.specR o M r).Ok N := by
  cases r with
  | error e => exact h
  | ok _ =>
    show (c.spec o M).Ok N
    cases c with
    | shred => exact h
    | add fs =>
      unfold Cmd.spec; simp only
      split
      · exact h
      · exact FMap.Ok.addAll _ _ _ h (fun x hx => (hc x hx).1)
    | remove ns =>
      unfold Cmd.spec; simp only
      split
      · exact h
      · exact FMap.Ok.dels _ _ h

theorem historyLegal_within {N : List Bytes} (hN : N.length ≤ 64) : ∀ (cs : List (Opts × Cmd)) (M : FMap) (rs : List (Except Err Unit)),
    M.Ok N → (∀ x ∈ cs, x.2.Within N) → HistoryLegal M cs rs := by
  intro cs
  induction cs with
  | nil => intro M rs _ _; trivial
  | cons c cs ih =>
    intro M rs h hw
    obtain ⟨o, c⟩ := c
    cases rs with
    | nil => trivial
    | cons r rs =>
      have hc := hw (o, c) List.mem_cons_self
      refine ⟨?_, ih _ rs (h.specR hc r) (fun x hx => hw x (List.mem_cons_of_mem _ hx))⟩
      cases c with
      | add fs => exact addLegal_within hN _ _ _ h hc
      | remove ns => trivial
      | shred => trivial

/-- **C05** with conditions that can be checked beforehand: histories of any length whose adds are forced or of one file
each, over at most 64 canonical names, with non-empty data, act exactly like map operations. -/
theorem C05_plain {h b M} {N : List Bytes} (cs : List (Opts × Cmd)) (hh : Holds h b M) (hmax : h.maxSectors < 1280)
    (hN : N.length ≤ 64) (hM : ∀ k ∈ M.keys, k ∈ N) (hw : ∀ x ∈ cs, x.2.Within N ∧ x.2.Single x.1) :
    Holds h (runHistory atariDriver cs b).2 (plainHistory M cs (runHistory atariDriver cs b).1) := by
  rw [← specHistory_plain cs M _ (fun x hx => (hw x hx).2)]
  refine C05_history cs hh hmax (historyLegal_within hN cs M _ ⟨?_, hM⟩ (fun x hx => (hw x hx).1))
  obtain ⟨m, ds, _, h2, _, h4, h5⟩ := hh
  exact Rep.nodup ⟨ds, h2, h4, h5⟩

/-- the blank single density disk holds the empty map -/
theorem holds_sd : Holds sdH sdDisk [] := by
  refine ⟨mountRec sdH sdDisk [], [], mounted_sd.1, mounted_sd, rfl, rfl, ?_⟩
  exact List.Perm.refl _

/-- a history with an overwrite, a removal and a wipe of the free sectors -/
def sampleHistory : List (Opts × Cmd) :=
  [({}, .add [(nameA, dataA)]), ({}, .add [(nameB, dataB)]), ({}, .add [(nameA, dataB)]), ({ force := true }, .add [(nameA, dataB), (nameB, dataA)]),
   ({}, .remove [nameB, nameB]), ({}, .shred), ({ dryRun := true }, .remove [nameA])]

example : Holds sdH (runHistory atariDriver sampleHistory sdDisk).2 (plainHistory [] sampleHistory (runHistory atariDriver sampleHistory sdDisk).1) ∧
    plainHistory [] sampleHistory (List.replicate 7 (.ok ())) = [(nameA, dataB)] := by
  refine ⟨C05_plain (N := [nameA, nameB]) _ holds_sd (by decide) (by decide) (fun k hk => by cases hk) ?_, ?_⟩
  · intro x hx
    simp only [sampleHistory, List.mem_cons, List.not_mem_nil, or_false] at hx
    rcases hx with rfl | rfl | rfl | rfl | rfl | rfl | rfl <;>
      simp [Cmd.Within, Cmd.Single, canonA, canonB, dataA_ne, dataB_ne]
  · have hab : nameA ≠ nameB := by decide
    have hba : nameB ≠ nameA := by decide
    simp [sampleHistory, List.replicate, plainHistory, Cmd.plain, FMap.addAll, FMap.addOne, FMap.put, FMap.del, FMap.keys, hab, hba]

/-! ### C37 -/

/-- **C37 is false**: adding a new file `n` and then an existing file `k` (no force) succeeds, `n` is in the image in
memory, but the image file on disk is not rewritten, so `n` is lost.  This happens on every volume with room for `n`. -/
theorem C37_added_file_lost {h b M n d k dk} (hh : Holds h b M) (hn : n ∉ M.keys) (hc : Canon83 n)
    (hd : d ≠ []) (hs : M.length < 64) (hk : k ∈ M.keys)
    (hroom : sectorsNeeded h d.length ≤ (freePool h b).length) :
    Cmd.run atariDriver {} (.add [(n, d), (k, dk)]) b = (.ok (), b) ∧
      (∃ m m', AImg.open b = .ok m ∧ Cmd.exec atariDriver {} (.add [(n, d), (k, dk)]) m = (.ok false, m') ∧ m'.findFile n = .ok d) ∧
      ∃ m, AImg.open b = .ok m ∧ m.findFile n = .error .fileNotFound := by
  obtain ⟨m, ds, h1, h2, h3, h4, h5⟩ := id hh
  have r : Rep h m M := ⟨ds, h2, h4, h5⟩
  have hex : ∃ m', Cmd.exec atariDriver {} (.add [(n, d), (k, dk)]) m = (.ok false, m') ∧ m'.findFile n = .ok d := by
    rcases r.write hn hc hd hs with ⟨m', k1, k2, _⟩ | ⟨_, k1⟩
    · refine ⟨m', ?_, ?_⟩
      · show addLoop atariDriver {} [(n, d), (k, dk)] false m = _
        have e1 : saveFile atariDriver {} n d m = (.ok true, m') := by
          unfold saveFile finishSave
          rw [r.find_not hn]
          simp only [Bool.false_eq_true, if_false]
          rw [show atariDriver.write n d m = (.ok (), m') from k1]
        have e2 : saveFile atariDriver {} k dk m' = (.ok false, m') := by
          unfold saveFile
          rw [k2.find_mem (List.mem_cons_of_mem _ hk)]
          rfl
        unfold addLoop addLoop addLoop
        rw [e1]; simp only
        rw [e2]
      · obtain ⟨ds', q1, _, q3⟩ := k2
        exact mounted_find q1 (q3.symm.subset (List.mem_cons_self))
    · rw [h4, h3] at k1; omega
  obtain ⟨m', hx, hf⟩ := hex
  refine ⟨?_, ⟨m, m', h1, hx, hf⟩, m, h1, ?_⟩
  · unfold Cmd.run
    rw [show atariDriver.load b = .ok m from h1]
    simp only [hx]
  · exact (find_missing (fun hx => hn (r.names.subset hx))).2

/-- **C37, the part that holds**: if the last file given was not skipped, a successful `add` saves every added file. -/
theorem C37_partial {h b M fs} {o : Opts} (hh : Holds h b M) (hmax : h.maxSectors < 1280) (ho : o.dryRun = false)
    (hl : AddLegal o.force M fs) (hlast : M.lastSkipped o.force fs = false)
    (hr : (Cmd.run atariDriver o (.add fs) b).1 = .ok ()) :
    Holds h (Cmd.run atariDriver o (.add fs) b).2 (M.addAll o.force fs) := by
  have := (run_rep (o := o) (c := .add fs) hh hmax hl).1
  rw [hr] at this
  simpa [Cmd.specR, Cmd.spec, ho, hlast] using this

/-- non-vacuous: a volume with `B` on it, adding `A.TXT` and `B` -/
example : ∃ b M, Holds sdH b M ∧ Cmd.run atariDriver {} (.add [(nameA, dataA), (nameB, dataB)]) b = (.ok (), b) ∧
    M.get nameA = none ∧ nameB ∈ M.keys := by
  obtain ⟨m, ds, h1, h2, h3, h4, h5⟩ := holds_sd
  have r : Rep sdH m [] := ⟨ds, h2, h4, h5⟩
  have hm : m = mountRec sdH sdDisk [] := by
    have := mounted_sd.1; rw [show (mountRec sdH sdDisk []).bytes = sdDisk from rfl, h1] at this; injection this
  have hb : sectorsNeeded sdH [(7 : UInt8)].length = 1 := by decide
  rcases r.write (n := nameB) (d := [7]) (by simp [FMap.keys]) canonB (by simp) (by decide) with ⟨m', k1, k2, _⟩ | ⟨_, k1⟩
  · obtain ⟨m1, ds1, L1, L2, order, e, q1, q2, q3, q4, q5, q6, q7, _⟩ :=
      mounted_write mounted_sd (name := nameB) (data := [7]) (by simp) canonB.2 (by decide) (by decide)
        (by rw [needed_eq mounted_sd]; show sectorsNeeded sdH [(7 : UInt8)].length ≤ (freePool sdH sdDisk).length
            rw [sdDisk_pool]; decide)
    rw [hm, q1] at k1
    injection k1 with _ k1
    subst k1
    refine ⟨m1.bytes, [(nameB, [7])], k2.holds, ?_, by decide, by simp [FMap.keys]⟩
    refine (C37_added_file_lost k2.holds (by simp [FMap.keys]; decide) canonA dataA_ne (by decide) (by simp [FMap.keys])
      ?_).1
    have hpool : (freePool m1.hdr m1.bytes).length = 706 := by
      rw [q7, List.length_drop, needed_eq mounted_sd,
        show sectorsNeeded (mountRec sdH sdDisk []).hdr [(7 : UInt8)].length = 1 from hb,
        show (freePool (mountRec sdH sdDisk []).hdr (mountRec sdH sdDisk []).bytes).length = 707 from sdDisk_pool]
    rw [q3] at hpool
    rw [show (mountRec sdH sdDisk []).hdr = sdH from rfl] at hpool
    rw [hpool, dataA_length]; decide
  · exfalso
    rw [hm] at k1
    have : (freePool sdH sdDisk).length < sectorsNeeded sdH [(7 : UInt8)].length := k1
    rw [sdDisk_pool, hb] at this
    omega

/-! ### C38 -/

/-- **C38, dry run**: for every kind of image (whatever its loading, writing and deleting functions do), every command and
every image file, a dry run leaves the file as it is. -/
theorem C38_dry_run {σ} (D : Driver σ) {o : Opts} (ho : o.dryRun = true) (c : Cmd) (b : Bytes) : (c.run D o b).2 = b :=
  run_dry D ho c b

theorem get_del {M : FMap} {n k : Bytes} : (M.del n).get k = if k = n then none else M.get k := by
  induction M with
  | nil => unfold FMap.get FMap.del; simp
  | cons x M ih =>
    obtain ⟨a, v⟩ := x
    unfold FMap.get FMap.del at *
    by_cases ha : a = n
    · subst ha
      rw [List.filter_cons_of_neg (by simp), ih]
      by_cases hk : k = a
      · rw [if_pos hk, if_pos hk]
      · rw [if_neg hk, if_neg hk, List.lookup_cons, beq_false_of_ne hk]
    · rw [List.filter_cons_of_pos (by simp [ha]), List.lookup_cons, List.lookup_cons, ih]
      by_cases hk : k = n
      · subst hk; rw [if_pos rfl, if_pos rfl, beq_false_of_ne (fun h => ha h.symm)]
      · rw [if_neg hk, if_neg hk]

theorem get_put {M : FMap} {n d k : Bytes} : (M.put n d).get k = if k = n then some d else M.get k := by
  unfold FMap.put FMap.get
  rw [List.lookup_cons]
  by_cases hk : k = n
  · rw [if_pos hk, hk, beq_self_eq_true]
  · rw [if_neg hk, beq_false_of_ne hk]
    show (M.del n).get k = M.get k
    rw [get_del, if_neg hk]

theorem mem_keys_get {M : FMap} {k : Bytes} (h : k ∈ M.keys) : ∃ d, M.get k = some d := by
  induction M with
  | nil => cases h
  | cons x M ih =>
    obtain ⟨a, v⟩ := x
    unfold FMap.get
    rw [List.lookup_cons]
    by_cases hk : k = a
    · rw [hk, beq_self_eq_true]; exact ⟨v, rfl⟩
    · rw [beq_false_of_ne hk]
      rcases List.mem_cons.mp h with h | h
      · exact absurd h hk
      · exact ih h

theorem get_addAll_keep : ∀ (fs : List (Bytes × Bytes)) (M : FMap) (k : Bytes), k ∈ M.keys →
    (M.addAll false fs).get k = M.get k := by
  intro fs
  induction fs with
  | nil => intro M k _; rfl
  | cons f fs ih =>
    intro M k hk
    obtain ⟨n, d⟩ := f
    show ((M.addOne false n d).addAll false fs).get k = M.get k
    by_cases hn : n ∈ M.keys
    · rw [show M.addOne false n d = M from if_pos ⟨hn, rfl⟩]; exact ih M k hk
    · rw [show M.addOne false n d = M.put n d from if_neg (fun h => hn h.1)]
      have hne : k ≠ n := fun h => hn (h ▸ hk)
      rw [ih (M.put n d) k (List.mem_cons_of_mem _ (mem_keys_del.mpr ⟨hk, hne⟩)), get_put, if_neg hne]

theorem get_addAll_other (force : Bool) : ∀ (fs : List (Bytes × Bytes)) (M : FMap) (k : Bytes), (∀ x ∈ fs, x.1 ≠ k) →
    (M.addAll force fs).get k = M.get k := by
  intro fs
  induction fs with
  | nil => intro M k _; rfl
  | cons f fs ih =>
    intro M k hk
    obtain ⟨n, d⟩ := f
    show ((M.addOne force n d).addAll force fs).get k = M.get k
    rw [ih _ k (fun x hx => hk x (List.mem_cons_of_mem _ hx))]
    unfold FMap.addOne
    split
    · rfl
    · rw [get_put, if_neg (fun h => hk _ List.mem_cons_self h.symm)]

theorem addAll_append (force : Bool) : ∀ (fs gs : List (Bytes × Bytes)) (M : FMap),
    M.addAll force (fs ++ gs) = (M.addAll force fs).addAll force gs := by
  intro fs
  induction fs with
  | nil => intro gs M; rfl
  | cons f fs ih => intro gs M; exact ih gs _

/-- **C38, without force**: whatever is added, and however the command ends, every file that was in the image reads back
with its old contents from the image file. -/
theorem C38_not_replaced {h b M fs} {o : Opts} (hh : Holds h b M) (hmax : h.maxSectors < 1280) (ho : o.force = false)
    (hl : AddLegal o.force M fs) {k d : Bytes} (hk : M.get k = some d) :
    ∃ m, AImg.open (Cmd.run atariDriver o (.add fs) b).2 = .ok m ∧ m.findFile k = .ok d := by
  have := (run_rep (o := o) (c := .add fs) hh hmax hl).1
  obtain ⟨m, h1, h2, _⟩ := this.get k
  refine ⟨m, h1, (h2 d).mpr ?_⟩
  have hmem : k ∈ M.keys := by
    have hk' := hk
    unfold FMap.get at hk'
    rw [List.lookup_eq_some_iff] at hk'
    obtain ⟨l1, l2, he, _⟩ := hk'
    rw [he]; simp [FMap.keys]
  cases (Cmd.run atariDriver o (.add fs) b).1 with
  | error e => exact hk
  | ok _ =>
    show (Cmd.spec o M (.add fs)).get k = _
    unfold Cmd.spec; simp only
    split
    · exact hk
    · rw [ho, get_addAll_keep _ _ _ hmem]; exact hk

/-- **C38, with force**: after a successful forced add (not a dry run) each given name has the contents given last for it. -/
theorem C38_replaced {h b M pre post n d} {o : Opts} (hh : Holds h b M) (hmax : h.maxSectors < 1280) (ho : o.force = true)
    (hdry : o.dryRun = false) (hl : AddLegal o.force M (pre ++ (n, d) :: post)) (hpost : ∀ x ∈ post, x.1 ≠ n)
    (hr : (Cmd.run atariDriver o (.add (pre ++ (n, d) :: post)) b).1 = .ok ()) :
    ∃ m, AImg.open (Cmd.run atariDriver o (.add (pre ++ (n, d) :: post)) b).2 = .ok m ∧ m.findFile n = .ok d := by
  have := C37_partial hh hmax hdry hl (by rw [ho]; exact lastSkipped_force _ _ (by simp)) hr
  obtain ⟨m, h1, h2, _⟩ := this.get n
  refine ⟨m, h1, (h2 d).mpr ?_⟩
  rw [addAll_append]
  show (((M.addAll o.force pre).addOne o.force n d).addAll o.force post).get n = some d
  rw [get_addAll_other _ _ _ _ hpost, ho]
  show (FMap.addOne true (M.addAll true pre) n d).get n = some d
  unfold FMap.addOne
  rw [if_neg (by simp), get_put, if_pos rfl]

/-- non-vacuous: replacing `A.TXT` on a volume that has it, with force and without -/
example : ∃ b, Holds sdH b [(nameA, dataA)] ∧
    (∃ m, AImg.open (Cmd.run atariDriver {} (.add [(nameA, dataB)]) b).2 = .ok m ∧ m.findFile nameA = .ok dataA) := by
  obtain ⟨m1, m2, ds1, ds2, h1, h2, h3, h4, h5, h6, h7, _⟩ := two_files
  have hh : Holds sdH m1.bytes [(nameA, dataA)] := ⟨m1, ds1, h2.1, h2, rfl, h5, by rw [h7]; exact List.Perm.refl _⟩
  refine ⟨m1.bytes, hh, C38_not_replaced hh (by decide) rfl ?_ (by simp [FMap.get])⟩
  exact ⟨canonA, dataB_ne, by simp [FMap.del], trivial⟩

end Atr
