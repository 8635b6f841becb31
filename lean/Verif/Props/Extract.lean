import Verif.Model.Extract
import Verif.Props.Cli
import Verif.Props.Dos33Cli
/-!
# C59, C60, C61: extracting files
-/
namespace Atr

theorem makeDir_files (o : XOpts) (s : Host) : (o.makeDir s).files = s.files := by
  unfold XOpts.makeDir
  cases o.dir with
  | none => rfl
  | some d => simp only; split <;> rfl

theorem extractOne_files (o : XOpts) (hd : o.dryRun = false) (n data : Bytes) (s : Host) :
    (extractOne o (n, .ok data) s).1 = .ok () ∧
    (extractOne o (n, .ok data) s).2.files =
      if o.path n ∈ s.files.keys ∧ o.force = false then s.files
      else s.files.put (o.path n) (if o.text then textBytes data else data) := by
  unfold extractOne
  simp only [hd, Bool.false_eq_true, if_false, makeDir_files]
  split
  · exact ⟨rfl, makeDir_files o s⟩
  · exact ⟨rfl, rfl⟩

/-- what an entry writes: the path, and the contents after conversion -/
def XOpts.output (o : XOpts) (e : Bytes × Bytes) : Bytes × Bytes := (o.path e.1, if o.text then textBytes e.2 else e.2)

theorem keys_get {M : FMap} {p : Bytes} : p ∈ M.keys ↔ M.get p ≠ none := by
  constructor
  · intro h; obtain ⟨d, hd⟩ := mem_keys_get h; rw [hd]; simp
  · intro h
    cases hg : M.get p with
    | none => exact absurd hg h
    | some d =>
      unfold FMap.get at hg
      rw [List.lookup_eq_some_iff] at hg
      obtain ⟨l1, l2, he, _⟩ := hg
      rw [he]; simp [FMap.keys]

/-- host files after extracting without force: existing files stay, and a new path gets the contents of the first file
written there -/
theorem extractLoop_keep {o : XOpts} (hd : o.dryRun = false) (hf : o.force = false) (p : Bytes) :
    ∀ (es : List (Bytes × Bytes)) (s : Host),
    (extractLoop o (es.map fun e => (e.1, .ok e.2)) s).1 = .ok () ∧
    (extractLoop o (es.map fun e => (e.1, .ok e.2)) s).2.files.get p =
      (s.files.get p).or (((es.map o.output).find? (fun e => e.1 == p)).map (·.2)) := by
  intro es
  induction es with
  | nil => intro s; exact ⟨rfl, by simp [extractLoop]⟩
  | cons e es ih =>
    intro s
    obtain ⟨h1, h2⟩ := extractOne_files o hd e.1 e.2 s
    cases hx : extractOne o (e.1, .ok e.2) s with
    | mk r s' =>
      rw [hx] at h1 h2
      simp only at h1 h2
      subst h1
      rw [List.map_cons, show extractLoop o ((e.1, .ok e.2) :: es.map fun e => (e.1, .ok e.2)) s =
        extractLoop o (es.map fun e => (e.1, .ok e.2)) s' by simp only [extractLoop, hx]]
      obtain ⟨i1, i2⟩ := ih s'
      refine ⟨i1, ?_⟩
      rw [i2, h2, List.map_cons, List.find?_cons]
      by_cases hk : o.path e.1 ∈ s.files.keys
      · rw [if_pos ⟨hk, hf⟩]
        by_cases hp : o.path e.1 = p
        · rw [show ((o.output e).1 == p) = true by simp [XOpts.output, hp]]
          rw [hp] at hk
          obtain ⟨d, hg⟩ := mem_keys_get hk
          rw [hg]; rfl
        · rw [show ((o.output e).1 == p) = false by simp [XOpts.output, hp]]
      · rw [if_neg (fun h => hk h.1), get_put]
        by_cases hp : o.path e.1 = p
        · rw [if_pos hp.symm, show ((o.output e).1 == p) = true by simp [XOpts.output, hp]]
          have : s.files.get p = none := by
            rw [hp] at hk
            cases hg : s.files.get p with
            | none => rfl
            | some d => exact absurd (keys_get.mpr (by rw [hg]; simp)) hk
          rw [this]; rfl
        · rw [if_neg (fun h => hp h.symm), show ((o.output e).1 == p) = false by simp [XOpts.output, hp]]

/-- with force: a path gets the contents of the last file written there, other paths stay -/
theorem extractLoop_force {o : XOpts} (hd : o.dryRun = false) (hf : o.force = true) (p : Bytes) :
    ∀ (es : List (Bytes × Bytes)) (s : Host),
    (extractLoop o (es.map fun e => (e.1, .ok e.2)) s).1 = .ok () ∧
    (extractLoop o (es.map fun e => (e.1, .ok e.2)) s).2.files.get p =
      (((es.map o.output).reverse.find? (fun e => e.1 == p)).map (·.2)).or (s.files.get p) := by
  intro es
  induction es with
  | nil => intro s; exact ⟨rfl, by simp [extractLoop]⟩
  | cons e es ih =>
    intro s
    obtain ⟨h1, h2⟩ := extractOne_files o hd e.1 e.2 s
    cases hx : extractOne o (e.1, .ok e.2) s with
    | mk r s' =>
      rw [hx] at h1 h2
      simp only at h1 h2
      subst h1
      rw [List.map_cons, show extractLoop o ((e.1, .ok e.2) :: es.map fun e => (e.1, .ok e.2)) s =
        extractLoop o (es.map fun e => (e.1, .ok e.2)) s' by simp only [extractLoop, hx]]
      obtain ⟨i1, i2⟩ := ih s'
      refine ⟨i1, ?_⟩
      rw [i2, h2, if_neg (by rw [hf]; simp), get_put, List.map_cons, List.reverse_cons, List.find?_append]
      by_cases hp : o.path e.1 = p
      · rw [if_pos hp.symm, List.find?_cons, show ((o.output e).1 == p) = true by simp [XOpts.output, hp]]
        cases ((es.map o.output).reverse.find? (fun e => e.1 == p)) <;> rfl
      · rw [if_neg (fun h => hp h.symm), List.find?_cons, show ((o.output e).1 == p) = false by simp [XOpts.output, hp]]
        cases ((es.map o.output).reverse.find? (fun e => e.1 == p)) <;> rfl

/-- **C59, conversion.** Converting a text file changes 0x7f to a tab and 0x9b to a newline, and nothing else. -/
theorem C59_text (data : Bytes) (i : Nat) : (textBytes data)[i]? =
    (data[i]?).map fun x => if x = 0x7f then 9 else if x = 0x9b then 10 else x := by
  unfold textBytes
  rw [List.getElem?_map, List.getElem?_map]
  cases data[i]? with
  | none => rfl
  | some x =>
    simp only [Option.map_some, Option.some.injEq]
    by_cases h1 : x = 0x7f
    · subst h1; decide
    · rw [if_neg h1, if_neg h1]

/-- the entries selected when all contents can be read and the names are distinct -/
theorem select_ok {o : XOpts} {M : FMap} {L : List (Bytes × Except Err Bytes)} (hp : L.Perm (M.map fun x => (x.1, .ok x.2)))
    (names : List Bytes) : ∃ es : List (Bytes × Bytes), o.select L names = es.map (fun e => (e.1, .ok e.2)) ∧ (∀ e ∈ es, e ∈ M ∧
      (o.all = true ∨ e.1 ∈ names)) ∧ ∀ n ∈ M.keys, (o.all = true ∨ n ∈ names) → n ∈ es.map (·.1) := by
  have hall : ∀ L' : List (Bytes × Except Err Bytes), (∀ x ∈ L', x ∈ M.map fun x => (x.1, (Except.ok x.2 : Except Err Bytes))) →
      ∃ es : List (Bytes × Bytes), L' = es.map (fun e => (e.1, .ok e.2)) ∧ ∀ e ∈ es, e ∈ M := by
    intro L'
    induction L' with
    | nil => intro _; exact ⟨[], rfl, fun e he => nomatch he⟩
    | cons x L' ih =>
      intro h
      obtain ⟨es, h1, h2⟩ := ih (fun y hy => h y (List.mem_cons_of_mem _ hy))
      obtain ⟨e, he, hx⟩ := List.mem_map.mp (h x List.mem_cons_self)
      refine ⟨e :: es, by rw [List.map_cons, ← h1, hx], ?_⟩
      intro y hy
      rcases List.mem_cons.mp hy with rfl | hy
      · exact he
      · exact h2 y hy
  unfold XOpts.select
  by_cases ha : o.all = true
  · rw [if_pos ha]
    obtain ⟨es, h1, h2⟩ := hall L (fun x hx => hp.subset hx)
    refine ⟨es, h1, fun e he => ⟨h2 e he, .inl ha⟩, ?_⟩
    intro n hn _
    obtain ⟨e, he, rfl⟩ := List.mem_map.mp hn
    have : (e.1, Except.ok e.2) ∈ L := hp.symm.subset (List.mem_map.mpr ⟨e, he, rfl⟩)
    rw [h1] at this
    obtain ⟨e', he', hx⟩ := List.mem_map.mp this
    exact List.mem_map.mpr ⟨e', he', by injection hx⟩
  · rw [if_neg ha]
    have hmem : ∀ x ∈ names.filterMap (fun n => L.find? (fun e => e.1 == n)), x ∈ L ∧ x.1 ∈ names := by
      intro x hx
      obtain ⟨n, hn, hf⟩ := List.mem_filterMap.mp hx
      refine ⟨List.mem_of_find?_eq_some hf, ?_⟩
      have := List.find?_some hf
      rw [beq_iff_eq] at this
      rw [this]; exact hn
    obtain ⟨es, h1, h2⟩ := hall _ (fun x hx => hp.subset (hmem x hx).1)
    refine ⟨es, h1, ?_, ?_⟩
    · intro e he
      refine ⟨h2 e he, .inr ?_⟩
      have : (e.1, Except.ok e.2) ∈ names.filterMap (fun n => L.find? (fun e => e.1 == n)) := by
        rw [h1]; exact List.mem_map.mpr ⟨e, he, rfl⟩
      exact (hmem _ this).2
    · intro n hn hw
      rcases hw with hw | hw
      · exact absurd hw ha
      obtain ⟨e, he, rfl⟩ := List.mem_map.mp hn
      have hL : (e.1, Except.ok e.2) ∈ L := hp.symm.subset (List.mem_map.mpr ⟨e, he, rfl⟩)
      cases hf : L.find? (fun x => x.1 == e.1) with
      | none =>
        have := List.find?_eq_none.mp hf _ hL
        simp at this
      | some x =>
        have hx : x ∈ names.filterMap (fun n => L.find? (fun e => e.1 == n)) := List.mem_filterMap.mpr ⟨e.1, hw, hf⟩
        have hxe := List.find?_some hf
        rw [beq_iff_eq] at hxe
        rw [h1] at hx
        obtain ⟨e', he', rfl⟩ := List.mem_map.mp hx
        exact List.mem_map.mpr ⟨e', he', hxe⟩

/-- the files of `M` go to different paths -/
def XOpts.Apart (o : XOpts) (M : FMap) : Prop := ∀ x ∈ M, ∀ y ∈ M, o.path x.1 = o.path y.1 → x = y

theorem find_output {o : XOpts} {M : FMap} (hap : o.Apart M) {es : List (Bytes × Bytes)} (hes : ∀ e ∈ es, e ∈ M) {n d : Bytes}
    (hn : (n, d) ∈ M) (hmem : n ∈ es.map (·.1)) :
    ((es.map o.output).find? (fun e => e.1 == o.path n)).map (·.2) = some (if o.text then textBytes d else d) := by
  cases hf : (es.map o.output).find? (fun e => e.1 == o.path n) with
  | none =>
    obtain ⟨e, he, rfl⟩ := List.mem_map.mp hmem
    have := List.find?_eq_none.mp hf _ (List.mem_map.mpr ⟨e, he, rfl⟩)
    simp [XOpts.output] at this
  | some x =>
    have h1 := List.find?_some hf
    rw [beq_iff_eq] at h1
    obtain ⟨e, he, rfl⟩ := List.mem_map.mp (List.mem_of_find?_eq_some hf)
    have := hap e (hes e he) (n, d) hn h1
    subst this
    rfl

/-- exact outcome of extracting from a volume holding `M` whose files go to different paths -/
theorem extract_spec {o : XOpts} {M : FMap} {L : List (Bytes × Except Err Bytes)} (hp : L.Perm (M.map fun x => (x.1, .ok x.2)))
    (hd : o.dryRun = false) (hap : o.Apart M) (names : List Bytes) (s : Host) :
    (extractFiles o L names s).1 = .ok () ∧
    (∀ n d, (n, d) ∈ M → (o.all = true ∨ n ∈ names) → (extractFiles o L names s).2.files.get (o.path n) =
      match s.files.get (o.path n), o.force with
      | some old, false => some old
      | _, _ => some (if o.text then textBytes d else d)) ∧
    (∀ p, (∀ n ∈ M.keys, (o.all = true ∨ n ∈ names) → o.path n ≠ p) →
      (extractFiles o L names s).2.files.get p = s.files.get p) := by
  obtain ⟨es, h1, h2, h3⟩ := select_ok (o := o) hp names
  unfold extractFiles
  rw [h1]
  have hnone : ∀ p, (∀ n ∈ M.keys, (o.all = true ∨ n ∈ names) → o.path n ≠ p) → ∀ x ∈ es.map o.output, ¬ (x.1 == p) = true := by
    intro p hpp x hx
    obtain ⟨e, he, rfl⟩ := List.mem_map.mp hx
    rw [beq_iff_eq]
    exact hpp e.1 (List.mem_map.mpr ⟨e, (h2 e he).1, rfl⟩) (h2 e he).2
  cases hf : o.force with
  | false =>
    refine ⟨(extractLoop_keep hd hf [] es s).1, ?_, ?_⟩
    · intro n d hn hw
      rw [(extractLoop_keep hd hf _ es s).2, find_output hap (fun e he => (h2 e he).1) hn (h3 n (List.mem_map.mpr ⟨_, hn, rfl⟩) hw)]
      cases s.files.get (o.path n) <;> rfl
    · intro p hpp
      rw [(extractLoop_keep hd hf _ es s).2, List.find?_eq_none.mpr (hnone p hpp)]
      cases s.files.get p <;> rfl
  | true =>
    refine ⟨(extractLoop_force hd hf [] es s).1, ?_, ?_⟩
    · intro n d hn hw
      rw [(extractLoop_force hd hf _ es s).2, ← List.map_reverse,
        find_output hap (fun e he => (h2 e (List.mem_reverse.mp he)).1) hn
          (by rw [List.map_reverse]; exact List.mem_reverse.mpr (h3 n (List.mem_map.mpr ⟨_, hn, rfl⟩) hw))]
      cases s.files.get (o.path n) <;> rfl
    · intro p hpp
      rw [(extractLoop_force hd hf _ es s).2, List.find?_eq_none.mpr (fun x hx => hnone p hpp x (List.mem_reverse.mp hx))]
      rfl

/-- **C59.** Extracting from an Atari DOS volume, all files or those named: no error; every selected file is on the host with
exactly its contents (converted for text), unless the path existed and there is no force, when the old file stays; all other
host files stay. -/
theorem C59_extract {h b M} {o : XOpts} (hh : Holds h b M) (hd : o.dryRun = false) (hap : o.Apart M) (names : List Bytes) (s : Host) :
    ∃ m, AImg.open b = .ok m ∧ (extractFiles o m.listing names s).1 = .ok () ∧
    (∀ n d, (n, d) ∈ M → (o.all = true ∨ n ∈ names) → (extractFiles o m.listing names s).2.files.get (o.path n) =
      match s.files.get (o.path n), o.force with
      | some old, false => some old
      | _, _ => some (if o.text then textBytes d else d)) ∧
    (∀ p, (∀ n ∈ M.keys, (o.all = true ∨ n ∈ names) → o.path n ≠ p) →
      (extractFiles o m.listing names s).2.files.get p = s.files.get p) := by
  obtain ⟨m, ds, h1, h2, h3, h4, h5⟩ := hh
  exact ⟨m, h1, extract_spec h5 hd hap names s⟩

/-- **C59** for DOS 3.3: the contents come filled up to whole sectors -/
theorem C59_extract33 {cs b M} {o : XOpts} (hh : Holds33 cs b M) (hd : o.dryRun = false) (hap : o.Apart M) (names : List Bytes) (s : Host) :
    ∃ m, DImg.open b = .ok m ∧
    let r := extractFiles o (m.listing.map fun x => (x.1, x.2.2)) names s
    r.1 = .ok () ∧
    (∀ n d, (n, d) ∈ M → (o.all = true ∨ n ∈ names) → r.2.files.get (o.path n) =
      match s.files.get (o.path n), o.force with
      | some old, false => some old
      | _, _ => some (if o.text then textBytes (padded33 d) else padded33 d)) ∧
    (∀ p, (∀ n ∈ M.keys, (o.all = true ∨ n ∈ names) → o.path n ≠ p) → r.2.files.get p = s.files.get p) := by
  obtain ⟨m, ds, h1, h2, h3, h4⟩ := hh
  refine ⟨m, h1, ?_⟩
  have hp : (m.listing.map fun x => (x.1, x.2.2)).Perm ((M.map fun x => (x.1, padded33 x.2)).map fun x => (x.1, Except.ok x.2)) := by
    rw [List.map_map]; exact h4
  have hap' : o.Apart (M.map fun x => (x.1, padded33 x.2)) := by
    intro x hx y hy hxy
    obtain ⟨x', hx', rfl⟩ := List.mem_map.mp hx
    obtain ⟨y', hy', rfl⟩ := List.mem_map.mp hy
    rw [hap x' hx' y' hy' hxy]
  obtain ⟨k1, k2, k3⟩ := extract_spec hp hd hap' names s
  refine ⟨k1, fun n d hn hw => k2 n (padded33 d) (List.mem_map.mpr ⟨_, hn, rfl⟩) hw, fun p hpp => k3 p ?_⟩
  intro n hn hw
  refine hpp n ?_ hw
  unfold FMap.keys at hn
  rw [List.map_map] at hn
  exact hn

/-! ### volumes with given files -/

theorem holds_write {h b M n d} (hh : Holds h b M) (hn : n ∉ M.keys) (hc : Canon83 n) (hd : d ≠ []) (hs : M.length < 64)
    (hroom : sectorsNeeded h d.length ≤ (freePool h b).length) :
    ∃ b', Holds h b' ((n, d) :: M) ∧ (freePool h b').length = (freePool h b).length - sectorsNeeded h d.length := by
  obtain ⟨m, ds, h1, h2, h3, h4, h5⟩ := hh
  have r : Rep h m M := ⟨ds, h2, h4, h5⟩
  subst h3; subst h4
  rw [← needed_eq h2] at hroom ⊢
  obtain ⟨m', ds', L1, L2, order, e, k1, k2, k3, k4, k5, k6, k7, _⟩ := mounted_write h2 hd hc.2 (by rw [r.length]; exact hs)
    (by rw [hc.1]; exact fun hx => hn (r.names.subset hx)) hroom
  refine ⟨m'.bytes, ⟨m', ds', k2.1, k2, rfl, k3, ?_⟩, ?_⟩
  · rw [k5, hc.1, List.map_cons]
    refine List.perm_middle.trans (List.Perm.cons _ ?_)
    rw [← k4]; exact h5
  · rw [k3] at k7; rw [k7, List.length_drop]

/-- **C59, every set of files is possible.** Any set of at most 64 non-empty files with different canonical names whose
sectors number at most 707 is what some single density disk holds. -/
theorem C59_every_set (M : FMap) (hn : M.keys.Nodup) (hc : ∀ x ∈ M, Canon83 x.1 ∧ x.2 ≠ []) (hl : M.length ≤ 64)
    (hs : (M.map fun x => sectorsNeeded sdH x.2.length).sum ≤ 707) :
    ∃ b, Holds sdH b M ∧ (freePool sdH b).length = 707 - (M.map fun x => sectorsNeeded sdH x.2.length).sum := by
  induction M with
  | nil => exact ⟨sdDisk, holds_sd, sdDisk_pool⟩
  | cons x M ih =>
    rw [List.map_cons, List.sum_cons] at hs
    obtain ⟨h1, h2⟩ := List.nodup_cons.mp hn
    obtain ⟨b, k1, k2⟩ := ih h2 (fun y hy => hc y (List.mem_cons_of_mem _ hy)) (by simp at hl; omega) (by omega)
    obtain ⟨b', q1, q2⟩ := holds_write k1 h1 (hc x List.mem_cons_self).1 (hc x List.mem_cons_self).2 (by simp at hl; omega) (by omega)
    refine ⟨b', q1, ?_⟩
    rw [q2, k2, List.map_cons, List.sum_cons]; omega

theorem joinPath_inj {d x y : Bytes} (hx : x.head? ≠ some 0x2f) (hy : y.head? ≠ some 0x2f) (h : joinPath d x = joinPath d y) : x = y := by
  unfold joinPath at h
  rw [if_neg hx, if_neg hy] at h
  split at h
  · exact List.append_cancel_left h
  · have := List.append_cancel_left h
    injection this

/-- **C59, when files go to different paths**: without `--lower` and with no name starting with a slash. -/
theorem C59_apart {o : XOpts} {M : FMap} (hl : o.lower = false) (hn : M.keys.Nodup) (hs : ∀ n ∈ M.keys, n.head? ≠ some 0x2f) :
    o.Apart M := by
  intro x hx y hy hxy
  have hk : ∀ z ∈ M, z.1 ∈ M.keys := fun z hz => List.mem_map.mpr ⟨z, hz, rfl⟩
  have e : x.1 = y.1 := by
    unfold XOpts.path at hxy
    simp only [hl, Bool.false_eq_true, if_false] at hxy
    cases hd : o.dir with
    | none => rw [hd] at hxy; exact hxy
    | some d =>
      rw [hd] at hxy
      simp only at hxy
      split at hxy
      · exact hxy
      · exact joinPath_inj (hs _ (hk x hx)) (hs _ (hk y hy)) hxy
  obtain ⟨i, hi, rfl⟩ := List.getElem_of_mem hx
  obtain ⟨j, hj, rfl⟩ := List.getElem_of_mem hy
  have hl2 : M.keys.length = M.length := List.length_map ..
  have : M.keys[i]'(by omega) = M.keys[j]'(by omega) := by
    unfold FMap.keys; rw [List.getElem_map, List.getElem_map]; exact e
  have := (List.nodup_iff_pairwise_ne.mp hn)
  rw [List.pairwise_iff_getElem] at this
  by_cases hij : i = j
  · subst hij; rfl
  · rcases Nat.lt_or_gt_of_ne hij with hlt | hlt
    · exact absurd ‹M.keys[i]'(by omega) = M.keys[j]'(by omega)› (this i j (by omega) (by omega) hlt)
    · exact absurd ‹M.keys[i]'(by omega) = M.keys[j]'(by omega)›.symm (this j i (by omega) (by omega) hlt)

/-- with only pairwise different paths given up, files get lost: a disk with the files `A` and `a`, extracted in lower case,
gives one host file; without force it has the contents of whichever file is first in the directory -/
theorem C59_refuted_lower : ∃ b m, AImg.open b = .ok m ∧ m.findFile [0x41] = .ok [1] ∧ m.findFile [0x61] = .ok [2] ∧
    ∀ force, ∃ d, extractFiles { all := true, lower := true, force := force } m.listing [] {} =
      (.ok (), { files := [([0x61], d)], dirs := [] }) := by
  obtain ⟨b, hh, _⟩ := C59_every_set [([0x41], [1]), ([0x61], [2])] (by decide) (by
    intro x hx
    simp only [List.mem_cons, List.not_mem_nil, or_false] at hx
    rcases hx with rfl | rfl <;> exact ⟨by unfold Canon83; decide, by decide⟩) (by decide) (by decide)
  obtain ⟨m, ds, h1, h2, h3, h4, h5⟩ := hh
  have f1 : m.findFile [0x41] = .ok [1] := mounted_find h2 (h5.symm.subset (by simp))
  have f2 : m.findFile [0x61] = .ok [2] := mounted_find h2 (h5.symm.subset (by simp))
  refine ⟨b, m, h1, f1, f2, ?_⟩
  intro force
  have hl : m.listing = [([0x41], .ok [1]), ([0x61], .ok [2])] ∨ m.listing = [([0x61], .ok [2]), ([0x41], .ok [1])] := by
    generalize m.listing = L at h5
    have hlen := h5.length_eq
    match L, hlen with
    | [x, y], _ =>
      have hx := h5.subset (List.mem_cons_self : x ∈ [x, y])
      have hA := h5.symm.subset (List.mem_cons_self)
      simp only [List.map_cons, List.map_nil, List.mem_cons, List.not_mem_nil, or_false] at hx
      rcases hx with rfl | rfl
      · left
        have := (List.perm_cons _).mp h5
        simp only [List.map_cons, List.map_nil] at this
        rw [List.perm_singleton.mp this]
      · right
        have := (List.perm_cons _).mp (h5.trans (List.Perm.swap _ _ _))
        simp only [List.map_nil] at this
        rw [List.perm_singleton.mp this]
  rcases hl with hl | hl <;> rw [hl] <;> cases force
  · exact ⟨[1], by rfl⟩
  · exact ⟨[2], by rfl⟩
  · exact ⟨[2], by rfl⟩
  · exact ⟨[1], by rfl⟩

/-- a disk with `A` and `B`; the host has `out/B` already: `A` is extracted, with 0x9b as a newline, `out/B` stays -/
example : ∃ b m, AImg.open b = .ok m ∧ let s : Host := { files := [([0x6f, 0x75, 0x74, 0x2f, 0x42], [7])] }
    let r := extractFiles { all := true, text := true, dir := some [0x6f, 0x75, 0x74] } m.listing [] s
    r.1 = .ok () ∧ r.2.files.get [0x6f, 0x75, 0x74, 0x2f, 0x41] = some [1, 10] ∧ r.2.files.get [0x6f, 0x75, 0x74, 0x2f, 0x42] = some [7] := by
  obtain ⟨b, hh, _⟩ := C59_every_set [([0x41], [1, 0x9b]), ([0x42], [2])] (by decide) (by
    intro x hx
    simp only [List.mem_cons, List.not_mem_nil, or_false] at hx
    rcases hx with rfl | rfl <;> exact ⟨by unfold Canon83; decide, by decide⟩) (by decide) (by decide)
  obtain ⟨m, h1, h2, h3, h4⟩ := C59_extract (o := { all := true, text := true, dir := some [0x6f, 0x75, 0x74] }) hh rfl
    (C59_apart rfl (by decide) (by decide)) [] { files := [([0x6f, 0x75, 0x74, 0x2f, 0x42], [7])] }
  exact ⟨b, m, h1, h2, h3 [0x41] [1, 0x9b] (by simp) (.inl rfl), h3 [0x42] [2] (by simp) (.inl rfl)⟩

/-- **C59, unreadable files.** A file that cannot be read ends the command with its error; the files before it are extracted,
those after it are not. -/
theorem C59_error_stops {o : XOpts} (hd : o.dryRun = false) (n : Bytes) (x : Err) (post : List (Bytes × Except Err Bytes)) :
    ∀ (pre : List (Bytes × Bytes)) (s : Host), (extractLoop o (pre.map (fun e => (e.1, .ok e.2)) ++ (n, .error x) :: post) s).1 = .error x ∧
      (extractLoop o (pre.map (fun e => (e.1, .ok e.2)) ++ (n, .error x) :: post) s).2.files =
        (extractLoop o (pre.map (fun e => (e.1, .ok e.2))) s).2.files := by
  intro pre
  induction pre with
  | nil =>
    intro s
    simp only [List.map_nil, List.nil_append, extractLoop, extractOne, hd, Bool.false_eq_true, if_false]
    exact ⟨trivial, makeDir_files o s⟩
  | cons e pre ih =>
    intro s
    have h1 := (extractOne_files o hd e.1 e.2 s).1
    cases hx : extractOne o (e.1, .ok e.2) s with
    | mk r s' =>
      rw [hx] at h1
      simp only at h1
      subst h1
      simp only [List.map_cons, List.cons_append, extractLoop, hx]
      exact ih s'

/-! ### C60: the output directory -/

/-- `p` names an entry of the directory `d` itself -/
def DirectlyIn (d p : Bytes) : Prop := ∃ c, c ≠ [] ∧ 0x2f ∉ c ∧ (p = d ++ 0x2f :: c ∨ (d.getLast? = some 0x2f ∧ p = d ++ c))

/-- **C60, the part that holds**: for names without a slash, all host files that change are entries of the directory given. -/
theorem C60_confined_partial {h b M} {o : XOpts} {d : Bytes} (hh : Holds h b M) (ho : o.dir = some d) (hd : d ≠ [])
    (hn : ∀ n ∈ M.keys, (0x2f : UInt8) ∉ n ∧ n ≠ []) (names : List Bytes) (s : Host) :
    ∃ m, AImg.open b = .ok m ∧ ∀ p, ¬ DirectlyIn d p → (extractFiles o m.listing names s).2.files.get p = s.files.get p := by
  obtain ⟨m, ds, h1, h2, h3, h4, h5⟩ := hh
  refine ⟨m, h1, ?_⟩
  intro p hp
  by_cases hdry : o.dryRun = true
  · have : ∀ es s, (extractLoop o es s).2.files = s.files := by
      intro es
      induction es with
      | nil => intro s; rfl
      | cons e es ih =>
        intro s
        simp only [extractLoop, extractOne, hdry, if_true]
        rw [ih, makeDir_files]
    unfold extractFiles
    rw [this]
  · rw [Bool.not_eq_true] at hdry
    obtain ⟨es, k1, k2, k3⟩ := select_ok (o := o) h5 names
    unfold extractFiles
    rw [k1]
    have hnone : ∀ x ∈ es.map o.output, ¬ (x.1 == p) = true := by
      intro x hx
      obtain ⟨e, he, rfl⟩ := List.mem_map.mp hx
      rw [beq_iff_eq]
      intro hpe
      refine hp ?_
      rw [← hpe]
      obtain ⟨q1, q2⟩ := hn e.1 (List.mem_map.mpr ⟨e, (k2 e he).1, rfl⟩)
      have hlow : ∀ n : Bytes, (0x2f : UInt8) ∉ n → (0x2f : UInt8) ∉ n.map lowerByte := by
        intro n hn' hm
        obtain ⟨c, hc, hc2⟩ := List.mem_map.mp hm
        have key : ∀ c : Fin 256, lowerByte (UInt8.ofNat c.val) = 0x2f → UInt8.ofNat c.val = 0x2f := by decide +kernel
        have e2 : UInt8.ofNat c.toNat = c := by simp
        have := key ⟨c.toNat, c.toNat_lt⟩ (by simp only [e2]; exact hc2)
        simp only [e2] at this
        exact hn' (this ▸ hc)
      have hout : ∃ c : Bytes, c ≠ [] ∧ (0x2f : UInt8) ∉ c ∧ o.path e.1 = joinPath d c := by
        unfold XOpts.path
        simp only [ho, if_neg hd]
        cases o.lower
        · exact ⟨e.1, q2, q1, rfl⟩
        · exact ⟨e.1.map lowerByte, by simpa using q2, hlow _ q1, rfl⟩
      obtain ⟨c, c1, c2, c3⟩ := hout
      refine ⟨c, c1, c2, ?_⟩
      show o.path e.1 = _ ∨ _ ∧ o.path e.1 = _
      rw [c3]
      unfold joinPath
      have hhead : c.head? ≠ some 0x2f := by
        cases c with
        | nil => simp
        | cons a c => simp; intro h; subst h; exact c2 List.mem_cons_self
      rw [if_neg hhead]
      by_cases hlast : d.getLast? = some 0x2f
      · right; exact ⟨hlast, if_pos (.inr hlast)⟩
      · left; exact if_neg (by simp [hd, hlast])
    cases hf : o.force with
    | false =>
      rw [(extractLoop_keep hdry hf _ es s).2, List.find?_eq_none.mpr hnone]
      cases s.files.get p <;> rfl
    | true =>
      rw [(extractLoop_force hdry hf _ es s).2, List.find?_eq_none.mpr (fun x hx => hnone x (List.mem_reverse.mp hx))]
      rfl

/-- **C60 is false**: a file whose name starts with a slash is written to that absolute path, whatever the directory given;
with force it replaces the host's file. -/
theorem C60_escape {h b M} {o : XOpts} {d n data : Bytes} (hh : Holds h b M) (ho : o.dir = some d) (hl : o.lower = false)
    (hd : o.dryRun = false) (ht : o.text = false) (hM : M = [(n, data)]) (hn : n.head? = some 0x2f) (s : Host)
    (hf : o.force = true ∨ n ∉ s.files.keys) :
    ∃ m, AImg.open b = .ok m ∧ (extractFiles o m.listing [n] s).1 = .ok () ∧
      (extractFiles o m.listing [n] s).2.files.get n = some data := by
  subst hM
  obtain ⟨m, h1, h2, h3, _⟩ := C59_extract hh hd (fun x hx y hy _ => by
    rw [List.mem_singleton] at hx hy; rw [hx, hy]) [n] s
  refine ⟨m, h1, h2, ?_⟩
  have hp : o.path n = n := by
    unfold XOpts.path
    simp only [hl, ho, Bool.false_eq_true, if_false]
    split
    · rfl
    · unfold joinPath; rw [if_pos hn]
  have := h3 n data List.mem_cons_self (.inr List.mem_cons_self)
  rw [hp, ht] at this
  rw [this]
  rcases hf with hf | hf
  · rw [hf]; cases s.files.get n <;> rfl
  · cases hg : s.files.get n with
    | none => rfl
    | some x => exact absurd (keys_get.mpr (by rw [hg]; simp)) hf

/-- such disks exist: extracting `/etc/abc` into `out` replaces the host's `/etc/abc` -/
theorem C60_refuted : ∃ b m, AImg.open b = .ok m ∧
    let etc : Bytes := [0x2f, 0x65, 0x74, 0x63, 0x2f, 0x61, 0x62, 0x63]
    let out : Bytes := [0x6f, 0x75, 0x74]
    ¬ DirectlyIn out etc ∧ (extractFiles { dir := some out, force := true } m.listing [etc] { files := [(etc, [9])] }).2.files.get etc = some [1, 2, 3] := by
  obtain ⟨b, hh, _⟩ := C59_every_set [([0x2f, 0x65, 0x74, 0x63, 0x2f, 0x61, 0x62, 0x63], [1, 2, 3])] (by decide) (by
    intro x hx
    rw [List.mem_singleton] at hx
    subst hx
    exact ⟨by unfold Canon83; decide, by decide⟩) (by decide) (by decide)
  obtain ⟨m, h1, h2, h3⟩ := C60_escape (o := { dir := some [0x6f, 0x75, 0x74], force := true }) hh rfl rfl rfl rfl rfl (by decide)
    { files := [([0x2f, 0x65, 0x74, 0x63, 0x2f, 0x61, 0x62, 0x63], [9])] } (.inl rfl)
  refine ⟨b, m, h1, ?_, h3⟩
  rintro ⟨c, _, _, hc | ⟨hc, _⟩⟩
  · have := congrArg List.head? hc; simp at this
  · exact absurd hc (by decide)

/-! ### C61: dry runs -/

/-- **C61, the part that holds**: a dry run writes no host file, raises no error, and makes no directory when the given one
exists or none is given. -/
theorem C61_dry_run_partial {o : XOpts} (hd : o.dryRun = true) (L : List (Bytes × Except Err Bytes)) (names : List Bytes) (s : Host) :
    (extractFiles o L names s).1 = .ok () ∧ (extractFiles o L names s).2.files = s.files ∧
      ((∀ d, o.dir = some d → d ∈ s.dirs) → (extractFiles o L names s).2 = s) := by
  unfold extractFiles
  generalize o.select L names = es
  induction es generalizing s with
  | nil => exact ⟨rfl, rfl, fun _ => rfl⟩
  | cons e es ih =>
    simp only [extractLoop, extractOne, hd, if_true]
    obtain ⟨h1, h2, h3⟩ := ih (o.makeDir s)
    refine ⟨h1, h2.trans (makeDir_files o s), ?_⟩
    intro hk
    have : o.makeDir s = s := by
      unfold XOpts.makeDir
      cases hdir : o.dir with
      | none => rfl
      | some d => simp only; rw [if_pos (.inr (hk d hdir))]
    rw [this] at h3 ⊢
    exact h3 hk

/-- **C61 is false**: a dry run into a directory that does not exist makes it, as soon as one file is selected. -/
theorem C61_makes_directory {o : XOpts} (hd : o.dryRun = true) {d : Bytes} (hdir : o.dir = some d) (hne : d ≠ [])
    (L : List (Bytes × Except Err Bytes)) (names : List Bytes) (hsel : o.select L names ≠ []) (s : Host) (hs : d ∉ s.dirs) :
    (extractFiles o L names s).2 = { s with dirs := d :: s.dirs } := by
  unfold extractFiles
  cases hes : o.select L names with
  | nil => exact absurd hes hsel
  | cons e es =>
    have hm : o.makeDir s = { s with dirs := d :: s.dirs } := by
      unfold XOpts.makeDir; rw [hdir]; simp only; rw [if_neg (by simp [hne, hs])]
    simp only [extractLoop, extractOne, hd, if_true]
    rw [hm]
    have : ∀ (es : List (Bytes × Except Err Bytes)) (s : Host), d ∈ s.dirs → (extractLoop o es s).2 = s := by
      intro es
      induction es with
      | nil => intro s _; rfl
      | cons e es ih =>
        intro s hs
        simp only [extractLoop, extractOne, hd, if_true]
        have : o.makeDir s = s := by
          unfold XOpts.makeDir; rw [hdir]; simp only; rw [if_pos (.inr hs)]
        rw [this]; exact ih s hs
    rw [this _ _ List.mem_cons_self]

example : (extractFiles { all := true, dryRun := true, dir := some [0x6f] } [([0x41], .ok [1])] [] {}).2 = { files := [], dirs := [[0x6f]] } :=
  C61_makes_directory rfl rfl (by decide) _ _ (by simp [XOpts.select]) {} (by simp)

end Atr
