import Verif.Spec.Cli
import Verif.Lemmas.AtariMounted
/-! # Commands refine the map operations -/
namespace Atr

/-! ### dry runs, for every driver -/

theorem finishSave_dry {σ} (D : Driver σ) {o : Opts} (ho : o.dryRun = true) (name data : Bytes) (m : σ) :
    finishSave D o name data m = (.ok false, m) := by
  unfold finishSave; rw [if_pos ho]

theorem saveFile_dry {σ} (D : Driver σ) {o : Opts} (ho : o.dryRun = true) (name data : Bytes) (m m' : σ) :
    saveFile D o name data m ≠ (.ok true, m') := by
  intro h
  unfold saveFile at h
  simp only [finishSave_dry D ho] at h
  split at h
  · cases h
  · cases h
  · split at h
    · split at h <;> cases h
    · cases h

theorem addLoop_dry {σ} (D : Driver σ) {o : Opts} (ho : o.dryRun = true) : ∀ (fs : List (Bytes × Bytes)) (m m' : σ),
    addLoop D o fs false m ≠ (.ok true, m') := by
  intro fs
  induction fs with
  | nil => intro m m' h; cases h
  | cons f fs ih =>
    intro m m' h
    obtain ⟨name, data⟩ := f
    unfold addLoop at h
    split at h
    · cases h
    · rename_i c m1 h1
      cases c with
      | true => exact saveFile_dry D ho _ _ _ _ h1
      | false => exact ih _ _ h

theorem removeLoop_dry {σ} (D : Driver σ) {o : Opts} (ho : o.dryRun = true) : ∀ (ns : List Bytes) (m m' : σ),
    removeLoop D o ns false m ≠ (.ok true, m') := by
  intro ns
  induction ns with
  | nil => intro m m' h; cases h
  | cons n ns ih =>
    intro m m' h
    unfold removeLoop at h
    rw [if_pos ho] at h
    split at h
    · exact ih _ _ h
    · cases h
    · exact ih _ _ h

theorem exec_dry {σ} (D : Driver σ) {o : Opts} (ho : o.dryRun = true) (c : Cmd) (m m' : σ) :
    c.exec D o m ≠ (.ok true, m') := by
  cases c with
  | add fs => exact addLoop_dry D ho fs m m'
  | remove ns => exact removeLoop_dry D ho ns m m'
  | shred => intro h; unfold Cmd.exec at h; simp only [ho, if_true] at h; cases h

theorem run_dry {σ} (D : Driver σ) {o : Opts} (ho : o.dryRun = true) (c : Cmd) (b : Bytes) : (c.run D o b).2 = b := by
  unfold Cmd.run
  split
  · rfl
  · split
    · rfl
    · rfl
    · rename_i h; exact absurd h (exec_dry D ho c _ _)

/-! ### the in-memory image and the map -/

def Rep (h : AHeader) (m : AImg) (M : FMap) : Prop :=
  ∃ ds, Mounted m ds ∧ m.hdr = h ∧ m.listing.Perm (M.map fun x => (x.1, .ok x.2))

theorem Rep.names {h m M} (r : Rep h m M) : m.names.Perm M.keys := by
  obtain ⟨ds, h1, h2, h3⟩ := r
  have := h3.map (·.1)
  rw [listing_names, List.map_map] at this
  exact this

theorem Rep.nodup {h m M} (r : Rep h m M) : M.keys.Nodup := by
  obtain ⟨ds, h1, _⟩ := id r
  exact r.names.nodup (mounted_nodup h1)

theorem Rep.length {h m M} (r : Rep h m M) : m.files.length = M.length := by
  have := r.names.length_eq
  unfold AImg.names FMap.keys at this
  simpa using this

theorem Rep.find_mem {h m M n} (r : Rep h m M) (hn : n ∈ M.keys) : atariDriver.find m n = .ok () := by
  obtain ⟨d, hd, he⟩ := List.mem_map.mp (r.names.symm.subset hn)
  unfold atariDriver
  simp only
  unfold AImg.findDirent
  cases hf : m.files.find? (fun d => d.filename == n) with
  | none =>
    rw [List.find?_eq_none] at hf
    have := hf d hd
    simp [he] at this
  | some d => rfl

theorem Rep.find_not {h m M n} (r : Rep h m M) (hn : n ∉ M.keys) : atariDriver.find m n = .error .fileNotFound := by
  have : n ∉ m.names := fun hc => hn (r.names.subset hc)
  unfold atariDriver
  simp only
  rw [(find_missing this).1]
  rfl

theorem FMap.del_not {M : FMap} {n : Bytes} (hn : n ∉ M.keys) : M.del n = M := by
  unfold FMap.del
  rw [List.filter_eq_self]
  intro x hx
  simp only [bne_iff_ne, ne_eq]
  intro he
  exact hn (by rw [← he]; exact List.mem_map_of_mem hx)

theorem mem_keys_del {M : FMap} {n k : Bytes} : k ∈ (M.del n).keys ↔ k ∈ M.keys ∧ k ≠ n := by
  unfold FMap.keys FMap.del
  simp only [List.mem_map, List.mem_filter, bne_iff_ne, ne_eq]
  constructor
  · rintro ⟨x, ⟨h1, h2⟩, rfl⟩; exact ⟨⟨x, h1, rfl⟩, h2⟩
  · rintro ⟨⟨x, h1, rfl⟩, h2⟩; exact ⟨x, ⟨h1, h2⟩, rfl⟩

theorem filter_keys {L1 L2 : List (Bytes × Except Err Bytes)} {n : Bytes} {x} (hnd : ((L1 ++ (n, x) :: L2).map (·.1)).Nodup) :
    (L1 ++ (n, x) :: L2).filter (fun p => p.1 != n) = L1 ++ L2 := by
  simp only [List.map_append, List.map_cons] at hnd
  have := (List.perm_middle (a := n) (l₁ := L1.map (·.1)) (l₂ := L2.map (·.1))).nodup hnd
  have hn := (List.nodup_cons.mp this).1
  rw [← List.map_append] at hn
  have hall : ∀ L : List (Bytes × Except Err Bytes), (∀ p ∈ L, p ∈ L1 ++ L2) → L.filter (fun p => p.1 != n) = L := by
    intro L hL
    rw [List.filter_eq_self]
    intro p hp
    simp only [bne_iff_ne, ne_eq]
    intro he
    exact hn (by rw [← he]; exact List.mem_map_of_mem (hL p hp))
  rw [List.filter_append, hall L1 (fun p hp => List.mem_append_left _ hp), List.filter_cons_of_neg (by simp),
    hall L2 (fun p hp => List.mem_append_right _ hp)]

theorem Rep.delete {h m M n} (r : Rep h m M) (hn : n ∈ M.keys) :
    ∃ m', AImg.deleteFile n m = (.ok (), m') ∧ Rep h m' (M.del n) := by
  obtain ⟨ds, h1, h2, h3⟩ := id r
  obtain ⟨m', ds', L1, L2, x, l, k1, k2, k3, k4, k5, _⟩ := mounted_delete h1 (r.names.symm.subset hn)
  refine ⟨m', k1, ds', k2, k3.trans h2, ?_⟩
  have hnd := mounted_nodup h1
  rw [← listing_names, k4] at hnd
  have := h3.filter (fun p => p.1 != n)
  rw [k4, filter_keys hnd, List.filter_map] at this
  rw [k5]
  exact this

theorem Rep.write {h m M n d} (r : Rep h m M) (hn : n ∉ M.keys) (hc : Canon83 n) (hd : d ≠ []) (hs : M.length < 64) :
    (∃ m', AImg.writeFile n d m = (.ok (), m') ∧ Rep h m' ((n, d) :: M) ∧
      sectorsNeeded h d.length ≤ (freePool m.hdr m.bytes).length) ∨
    (AImg.writeFile n d m = (.error .notEnoughSpace, m) ∧ (freePool m.hdr m.bytes).length < sectorsNeeded h d.length) := by
  obtain ⟨ds, h1, h2, h3⟩ := id r
  have hne : (pieces m.hdr d).length = sectorsNeeded h d.length := by
    have := h1.2.sectorSize
    rw [pieces, length_chunks _ (by omega), h2]; rfl
  by_cases hk : (pieces m.hdr d).length ≤ (freePool m.hdr m.bytes).length
  · obtain ⟨m', ds', L1, L2, order, e, k1, k2, k3, k4, k5, _⟩ := mounted_write h1 hd hc.2 (by rw [r.length]; exact hs)
      (by rw [hc.1]; exact fun hx => hn (r.names.subset hx)) hk
    refine Or.inl ⟨m', k1, ⟨ds', k2, k3.trans h2, ?_⟩, by rw [← hne]; exact hk⟩
    rw [k5, hc.1, List.map_cons]
    rw [k4] at h3
    exact List.perm_middle.trans (h3.cons _)
  · exact Or.inr ⟨mounted_full h1 (by omega), by rw [← hne]; omega⟩

theorem Rep.shred {h m M} (r : Rep h m M) (fill : Nat) (hmax : h.maxSectors < 1280) :
    ∃ m', AImg.shred fill m = (.ok (), m') ∧ Rep h m' M := by
  obtain ⟨ds, h1, h2, h3⟩ := r
  obtain ⟨m', k1, k2, k3, k4, _⟩ := mounted_shred h1 fill (by rw [h2]; exact hmax)
  exact ⟨m', k1, ds, k2, k3.trans h2, by rw [k4]; exact h3⟩

/-! ### loops -/

theorem saveFile_rep {h m M n d} {o : Opts} (ho : o.dryRun = false) (r : Rep h m M) (hc : Canon83 n) (hd : d ≠ [])
    (hs : (M.del n).length < 64) :
    (n ∈ M.keys ∧ o.force = false ∧ saveFile atariDriver o n d m = (.ok false, m)) ∨
    (¬ (n ∈ M.keys ∧ o.force = false) ∧ ((∃ m', saveFile atariDriver o n d m = (.ok true, m') ∧ Rep h m' (M.put n d)) ∨
      ∃ m', saveFile atariDriver o n d m = (.error .notEnoughSpace, m'))) := by
  have fin : ∀ {m1 : AImg}, Rep h m1 (M.del n) →
      (∃ m', finishSave atariDriver o n d m1 = (.ok true, m') ∧ Rep h m' (M.put n d)) ∨
      ∃ m', finishSave atariDriver o n d m1 = (.error .notEnoughSpace, m') := by
    intro m1 r1
    have hnn : n ∉ (M.del n).keys := fun hx => (mem_keys_del.mp hx).2 rfl
    unfold finishSave
    rw [if_neg (by simp [ho])]
    rcases r1.write hnn hc hd hs with ⟨m', k1, k2, _⟩ | ⟨k1, _⟩
    · left
      refine ⟨m', ?_, k2⟩
      rw [show atariDriver.write n d m1 = (.ok (), m') from k1]
    · right
      exact ⟨m1, by rw [show atariDriver.write n d m1 = (.error .notEnoughSpace, m1) from k1]⟩
  by_cases hn : n ∈ M.keys
  · cases hf : o.force with
    | false =>
      left
      refine ⟨hn, rfl, ?_⟩
      unfold saveFile
      rw [r.find_mem hn]
      simp [hf]
    | true =>
      right
      refine ⟨by simp, ?_⟩
      obtain ⟨m1, k1, k2⟩ := r.delete hn
      unfold saveFile
      rw [r.find_mem hn]
      simp only [hf, if_true]
      rw [show atariDriver.delete n m = (.ok (), m1) from k1]
      exact fin k2
  · right
    refine ⟨fun hx => hn hx.1, ?_⟩
    unfold saveFile
    rw [r.find_not hn]
    exact fin (by rw [FMap.del_not hn]; exact r)

theorem lastSkipped_cons (force : Bool) (M : FMap) (n d : Bytes) (fs : List (Bytes × Bytes)) :
    M.lastSkipped force ((n, d) :: fs) =
      if fs = [] then decide (n ∈ M.keys ∧ force = false) else (M.addOne force n d).lastSkipped force fs := by
  cases fs with
  | nil => rfl
  | cons f fs => rw [if_neg (by simp)]; rfl

theorem addLoop_rep {h} {o : Opts} (ho : o.dryRun = false) : ∀ (fs : List (Bytes × Bytes)) (m : AImg) (M : FMap) (ch : Bool),
    Rep h m M → AddLegal o.force M fs →
    (∃ m', addLoop atariDriver o fs ch m = (.ok (if fs = [] then ch else !(M.lastSkipped o.force fs)), m') ∧
      Rep h m' (M.addAll o.force fs)) ∨
    ∃ m', addLoop atariDriver o fs ch m = (.error .notEnoughSpace, m') := by
  intro fs
  induction fs with
  | nil => intro m M ch r _; exact Or.inl ⟨m, rfl, r⟩
  | cons f fs ih =>
    intro m M ch r hl
    obtain ⟨n, d⟩ := f
    obtain ⟨hc, hd, hs, hl⟩ := hl
    rw [if_neg (by simp), lastSkipped_cons]
    show (∃ m', _ ∧ Rep h m' ((M.addOne o.force n d).addAll o.force fs)) ∨ _
    unfold addLoop
    rcases saveFile_rep ho r hc hd hs with ⟨k1, k2, k3⟩ | ⟨k1, k3⟩
    · have ha : M.addOne o.force n d = M := if_pos ⟨k1, k2⟩
      rw [k3]
      rw [ha] at hl ⊢
      simp only [decide_eq_true (And.intro k1 k2)]
      rcases ih m M false r hl with ⟨m', q1, q2⟩ | q
      · refine Or.inl ⟨m', ?_, q2⟩
        rw [q1]
        split <;> rfl
      · exact Or.inr q
    · have ha : M.addOne o.force n d = M.put n d := if_neg k1
      rw [ha] at hl ⊢
      rcases k3 with ⟨m1, k3, k4⟩ | ⟨m1, k3⟩
      · rw [k3]
        simp only [decide_eq_false k1]
        rcases ih m1 _ true k4 hl with ⟨m', q1, q2⟩ | q
        · refine Or.inl ⟨m', ?_, q2⟩
          rw [q1]
          split <;> rfl
        · exact Or.inr q
      · rw [k3]; exact Or.inr ⟨m1, rfl⟩

theorem removeLoop_rep {h} {o : Opts} (ho : o.dryRun = false) : ∀ (ns : List Bytes) (m : AImg) (M : FMap) (ch : Bool),
    Rep h m M → ∃ m' c, removeLoop atariDriver o ns ch m = (.ok c, m') ∧ Rep h m' (ns.foldl FMap.del M) ∧
      (c = false → m' = m ∧ ch = false) := by
  intro ns
  induction ns with
  | nil => intro m M ch r; exact ⟨m, ch, rfl, r, fun hc => ⟨rfl, hc⟩⟩
  | cons n ns ih =>
    intro m M ch r
    unfold removeLoop
    by_cases hn : n ∈ M.keys
    · obtain ⟨m1, k1, k2⟩ := r.delete hn
      rw [r.find_mem hn]
      simp only [ho, if_neg Bool.false_ne_true]
      rw [show atariDriver.delete n m = (.ok (), m1) from k1]
      obtain ⟨m', c, q1, q2, q3⟩ := ih m1 _ true k2
      exact ⟨m', c, q1, q2, fun hc => absurd (q3 hc).2 (by simp)⟩
    · rw [r.find_not hn]
      have := ih m M ch r
      rw [List.foldl_cons, FMap.del_not hn]
      exact this

/-! ### dry runs of mounted volumes do not fail -/

theorem addLoop_dry_ok {h} {o : Opts} (ho : o.dryRun = true) : ∀ (fs : List (Bytes × Bytes)) (m : AImg) (M : FMap),
    Rep h m M → ∃ m', addLoop atariDriver o fs false m = (.ok false, m') := by
  intro fs
  induction fs with
  | nil => intro m M r; exact ⟨m, rfl⟩
  | cons f fs ih =>
    intro m M r
    obtain ⟨n, d⟩ := f
    unfold addLoop saveFile
    simp only [finishSave_dry atariDriver ho]
    by_cases hn : n ∈ M.keys
    · rw [r.find_mem hn]
      cases hf : o.force with
      | false => simp only [if_neg Bool.false_ne_true]; exact ih m M r
      | true =>
        obtain ⟨m1, k1, k2⟩ := r.delete hn
        simp only [if_true]
        rw [show atariDriver.delete n m = (.ok (), m1) from k1]
        exact ih m1 _ k2
    · rw [r.find_not hn]; exact ih m M r

theorem removeLoop_dry_ok {h} {o : Opts} (ho : o.dryRun = true) : ∀ (ns : List Bytes) (m : AImg) (M : FMap),
    Rep h m M → ∃ m', removeLoop atariDriver o ns false m = (.ok false, m') := by
  intro ns
  induction ns with
  | nil => intro m M r; exact ⟨m, rfl⟩
  | cons n ns ih =>
    intro m M r
    unfold removeLoop
    by_cases hn : n ∈ M.keys
    · rw [r.find_mem hn]; simp only [ho, if_true]; exact ih m M r
    · rw [r.find_not hn]; exact ih m M r

/-! ### one command, whole histories -/

theorem Rep.holds {h m M} (r : Rep h m M) : Holds h m.bytes M := by
  obtain ⟨ds, h1, h2, h3⟩ := r
  exact ⟨m, ds, h1.1, h1, rfl, h2, h3⟩

theorem run_rep {h b M} {o : Opts} {c : Cmd} (hh : Holds h b M) (hmax : h.maxSectors < 1280) (hl : c.Legal o M) :
    Holds h (c.run atariDriver o b).2 (c.specR o M (c.run atariDriver o b).1) ∧
      ((c.run atariDriver o b).1 = .ok () ∨
        ((c.run atariDriver o b).1 = .error .notEnoughSpace ∧ (c.run atariDriver o b).2 = b)) := by
  obtain ⟨m, ds, h1, h2, h3, h4, h5⟩ := id hh
  have r : Rep h m M := ⟨ds, h2, h4, h5⟩
  unfold Cmd.run
  rw [show atariDriver.load b = .ok m from h1]
  simp only
  cases ho : o.dryRun with
  | true =>
    have hok : ∃ m', c.exec atariDriver o m = (.ok false, m') := by
      cases c with
      | add fs => exact addLoop_dry_ok ho fs m M r
      | remove ns => exact removeLoop_dry_ok ho ns m M r
      | shred => exact ⟨m, by unfold Cmd.exec; simp [ho]⟩
    obtain ⟨m', hok⟩ := hok
    rw [hok]
    refine ⟨?_, Or.inl rfl⟩
    have : c.spec o M = M := by cases c <;> simp [Cmd.spec, ho]
    show Holds h b (c.spec o M)
    rw [this]; exact hh
  | false =>
    cases c with
    | add fs =>
      rw [show Cmd.exec atariDriver o (.add fs) m = addLoop atariDriver o fs false m from rfl]
      rcases addLoop_rep ho fs m M false r hl with ⟨m', q1, q2⟩ | ⟨m', q1⟩
      · rw [q1]
        by_cases hf : fs = []
        · subst hf
          refine ⟨?_, Or.inl rfl⟩
          show Holds h b (Cmd.spec o M (.add []))
          simpa [Cmd.spec, FMap.lastSkipped] using hh
        · rw [if_neg hf]
          cases hs : M.lastSkipped o.force fs with
          | true =>
            refine ⟨?_, Or.inl rfl⟩
            show Holds h b (Cmd.spec o M (.add fs))
            simpa [Cmd.spec, hs] using hh
          | false =>
            refine ⟨?_, Or.inl rfl⟩
            show Holds h m'.bytes (Cmd.spec o M (.add fs))
            simpa [Cmd.spec, hs, ho] using q2.holds
      · rw [q1]; exact ⟨hh, Or.inr ⟨rfl, rfl⟩⟩
    | remove ns =>
      rw [show Cmd.exec atariDriver o (.remove ns) m = removeLoop atariDriver o ns false m from rfl]
      obtain ⟨m', c, q1, q2, q3⟩ := removeLoop_rep ho ns m M false r
      rw [q1]
      have hsp : Cmd.spec o M (.remove ns) = ns.foldl FMap.del M := by simp [Cmd.spec, ho]
      cases c with
      | true => exact ⟨by show Holds h m'.bytes (Cmd.spec o M (.remove ns)); rw [hsp]; exact q2.holds, Or.inl rfl⟩
      | false =>
        refine ⟨?_, Or.inl rfl⟩
        show Holds h b (Cmd.spec o M (.remove ns))
        rw [hsp, ← h3, ← (q3 rfl).1]; exact q2.holds
    | shred =>
      obtain ⟨m', q1, q2⟩ := r.shred 0 hmax
      have hx : Cmd.exec atariDriver o .shred m = (.ok true, m') := by
        unfold Cmd.exec
        simp only [ho, if_neg Bool.false_ne_true]
        rw [show atariDriver.shred m = (.ok (), m') from q1]
      rw [hx]
      exact ⟨q2.holds, Or.inl rfl⟩

theorem history_rep {h} (hmax : h.maxSectors < 1280) : ∀ (cs : List (Opts × Cmd)) (b : Bytes) (M : FMap),
    Holds h b M → HistoryLegal M cs (runHistory atariDriver cs b).1 →
    Holds h (runHistory atariDriver cs b).2 (specHistory M cs (runHistory atariDriver cs b).1) := by
  intro cs
  induction cs with
  | nil => intro b M hh _; exact hh
  | cons c cs ih =>
    intro b M hh hl
    obtain ⟨o, c⟩ := c
    obtain ⟨h1, h2⟩ := hl
    exact ih _ _ (run_rep hh hmax h1).1 h2

theorem Holds.get {h b M} (hh : Holds h b M) (n : Bytes) :
    ∃ m, AImg.open b = .ok m ∧ (∀ d, m.findFile n = .ok d ↔ M.get n = some d) ∧
      (m.findFile n = .error .fileNotFound ↔ M.get n = none) := by
  obtain ⟨m, ds, h1, h2, h3, h4, h5⟩ := hh
  have r : Rep h m M := ⟨ds, h2, h4, h5⟩
  have key : (∃ d, M.get n = some d ∧ m.findFile n = .ok d) ∨ (M.get n = none ∧ m.findFile n = .error .fileNotFound) := by
    cases hg : M.get n with
    | some d =>
      left
      refine ⟨d, rfl, mounted_find h2 ?_⟩
      refine h5.symm.subset (List.mem_map.mpr ⟨(n, d), ?_, rfl⟩)
      unfold FMap.get at hg
      rw [List.lookup_eq_some_iff] at hg
      obtain ⟨l1, l2, he, _⟩ := hg
      rw [he]; simp
    | none =>
      right
      refine ⟨rfl, (find_missing ?_).2⟩
      intro hx
      obtain ⟨x, hx, he⟩ := List.mem_map.mp (r.names.subset hx)
      unfold FMap.get at hg
      rw [List.lookup_eq_none_iff] at hg
      have := hg x hx
      simp [he] at this
  refine ⟨m, h1, ?_⟩
  rcases key with ⟨d, k1, k2⟩ | ⟨k1, k2⟩
  · rw [k1, k2]; simp
  · rw [k1, k2]; simp

end Atr
