import Verif.Props.ProgramFiles
/-! # C110: copying a disk file by file -/
namespace Atr

theorem needed_def {m : AImg} {ds} (hm : Mounted m ds) (d : Bytes) : (pieces m.hdr d).length = sectorsNeeded m.hdr d.length := needed_eq hm d

/-- a list of new files that fits is added, all of it: `pool` is the number of free sectors, `cost` the number a file takes -/
theorem addLoop_fitsG {σ : Type} {D : Driver σ} {R : σ → FMap → Prop} {P : Bytes → Bytes → Prop} {cap : Nat} {pool : σ → Nat} {cost : Bytes → Nat}
    (hfind : ∀ {m M n}, R m M → n ∉ M.keys → D.find m n = .error .fileNotFound)
    (hwrite : ∀ {m M n d}, R m M → n ∉ M.keys → P n d → M.length < cap → cost d ≤ pool m →
      ∃ m', D.write n d m = (.ok (), m') ∧ R m' ((n, d) :: M) ∧ pool m' = pool m - cost d)
    {o : Opts} (ho : o.dryRun = false) : ∀ (fs : FMap) (M : FMap) (m : σ) (c : Bool), R m M →
    (fs.keys ++ M.keys).Nodup → (∀ x ∈ fs, P x.1 x.2) → M.length + fs.length ≤ cap →
    (fs.map fun x => cost x.2).sum ≤ pool m → ∃ m' c', addLoop D o fs c m = (.ok c', m') := by
  intro fs
  induction fs with
  | nil => intro M m c _ _ _ _ _; exact ⟨m, c, rfl⟩
  | cons x fs ih =>
    intro M m c r hnd hc hlen hfit
    obtain ⟨n, d⟩ := x
    rw [List.map_cons, List.sum_cons] at hfit
    simp only at hfit
    have hnd' := List.nodup_cons.mp (show (n :: (FMap.keys fs ++ FMap.keys M)).Nodup from hnd)
    have hn : n ∉ M.keys := fun hx => hnd'.1 (List.mem_append_right _ hx)
    rw [List.length_cons] at hlen
    obtain ⟨m', k1, k2, k3⟩ := hwrite (d := d) r hn (hc (n, d) List.mem_cons_self) (by omega) (by omega)
    have e1 : saveFile D o n d m = (.ok true, m') := by
      unfold saveFile finishSave
      rw [hfind r hn, ho]
      simp only [Bool.false_eq_true, if_false]
      rw [k1]
    have hperm : (FMap.keys fs ++ FMap.keys ((n, d) :: M)).Perm (FMap.keys ((n, d) :: fs) ++ FMap.keys M) := List.perm_middle
    obtain ⟨m'', c', q1⟩ := ih ((n, d) :: M) m' true k2 (hperm.nodup_iff.mpr hnd) (fun x hx => hc x (List.mem_cons_of_mem _ hx))
      (by rw [List.length_cons]; omega) (by rw [k3]; omega)
    exact ⟨m'', c', by unfold addLoop; simp only [e1]; exact q1⟩

theorem addLoop_fits {h : AHeader} {o : Opts} (ho : o.dryRun = false) (fs : FMap) (M : FMap) (m : AImg) (c : Bool) (r : Rep h m M)
    (hnd : (fs.keys ++ M.keys).Nodup) (hc : ∀ x ∈ fs, Canon83 x.1 ∧ x.2 ≠ []) (hlen : M.length + fs.length ≤ 64)
    (hfit : (fs.map fun x => sectorsNeeded h x.2.length).sum ≤ (freePool m.hdr m.bytes).length) :
    ∃ m' c', addLoop atariDriver o fs c m = (.ok c', m') := by
  refine addLoop_fitsG (R := Rep h) (P := fun n d => Canon83 n ∧ d ≠ []) (cap := 64) (pool := fun m => (freePool m.hdr m.bytes).length)
    (cost := fun d => sectorsNeeded h d.length) (fun r hn => r.find_not hn) ?_ ho fs M m c r hnd hc hlen hfit
  intro m M n d r hn hcd hl hk
  obtain ⟨ds, h1, h2, h3⟩ := id r
  have hne : (pieces m.hdr d).length = sectorsNeeded h d.length := by rw [needed_def h1, h2]
  obtain ⟨m', ds', L1, L2, order, e, k1, k2, k3, k4, k5, k6, k7, _⟩ := mounted_write h1 hcd.2 hcd.1.2 (by rw [r.length]; omega)
    (by rw [hcd.1.1]; exact fun hx => hn (r.names.subset hx)) (by rw [hne]; exact hk)
  refine ⟨m', k1, ⟨ds', k2, k3.trans h2, ?_⟩, by rw [k7, List.length_drop, hne]⟩
  rw [k5, hcd.1.1, List.map_cons]
  rw [k4] at h3
  exact List.perm_middle.trans (h3.cons _)

/-- the sectors a DOS 3.3 file takes -/
abbrev cost33 (d : Bytes) : Nat := dataSecs33 d.length + listSecs33 d.length

theorem addLoop_fits33 {cat : List Nat} {t : Char} (ht : t ≠ 'T') {o : Opts} (ho : o.dryRun = false) (fs : FMap) (M : FMap) (m : DImg) (c : Bool) (r : Rep33 cat m M)
    (hnd : (fs.keys ++ M.keys).Nodup) (hc : ∀ x ∈ fs, Fits33 x.1 x.2) (hlen : M.length + fs.length ≤ 7 * (cat.length - 1))
    (hfit : (fs.map fun x => cost33 x.2).sum ≤ (freePool33 m.bytes).length) :
    ∃ m' c', addLoop (dos33Driver t) o fs c m = (.ok c', m') := by
  refine addLoop_fitsG (R := Rep33 cat) (P := Fits33) (cap := 7 * (cat.length - 1)) (pool := fun m => (freePool33 m.bytes).length)
    (cost := cost33) (sim33 ht cat).find_not ?_ ho fs M m c r hnd hc hlen hfit
  intro m M n d r hn hp hs hk
  obtain ⟨ds, h1, h2⟩ := id r
  obtain ⟨p1, p2, p3⟩ := hp
  obtain ⟨t1, t2⟩ := textToType33_ok ht
  have hnew' : norm33 n ∉ m.names := by rw [p1]; exact fun hx => hn (r.names.subset hx)
  have hok := (C10_write_succeeds_iff (name := n) (data := d) h1 t1 t2 hnew').mpr ⟨p3, p2, by rw [r.length]; exact hs, hk⟩
  show ∃ m', DImg.writeFile n (textToType33 t) d m = (.ok (), m') ∧ _
  generalize hw : DImg.writeFile n (textToType33 t) d m = q at hok
  obtain ⟨q1, m'⟩ := q
  simp only at hok
  subst hok
  obtain ⟨ds', L1, L2, k1, k2, k3, _, k4, _⟩ := write33_ok h1 t1 t2 hnew' hw
  refine ⟨m', rfl, ⟨ds', k1, ?_⟩, by rw [k4, List.length_drop]⟩
  rw [k3, p1, List.map_append, List.map_cons, List.map_cons]
  rw [k2, List.map_append] at h2
  exact List.perm_middle.trans (h2.cons _)

theorem addAll_new {force : Bool} : ∀ (fs M : FMap), (fs.keys ++ M.keys).Nodup → M.addAll force fs = fs.reverse ++ M := by
  intro fs
  induction fs with
  | nil => intro M _; rfl
  | cons x fs ih =>
    intro M hnd
    obtain ⟨n, d⟩ := x
    have hnd' := List.nodup_cons.mp (show (n :: (FMap.keys fs ++ FMap.keys M)).Nodup from hnd)
    have hn : n ∉ M.keys := fun hx => hnd'.1 (List.mem_append_right _ hx)
    have hdel : M.del n = M := by
      unfold FMap.del
      rw [List.filter_eq_self]
      intro x hx
      have : x.1 ≠ n := fun e => hn (e ▸ List.mem_map.mpr ⟨x, hx, rfl⟩)
      simpa using this
    have hperm : (FMap.keys fs ++ FMap.keys ((n, d) :: M)).Perm (FMap.keys ((n, d) :: fs) ++ FMap.keys M) := List.perm_middle
    rw [FMap.addAll, FMap.addOne, if_neg (by simp [hn]), FMap.put, hdel, ih _ (hperm.nodup_iff.mpr hnd)]
    simp

theorem del_new {M : FMap} {n : Bytes} (hn : n ∉ M.keys) : M.del n = M := by
  unfold FMap.del
  rw [List.filter_eq_self]
  intro x hx
  have : x.1 ≠ n := fun e => hn (e ▸ List.mem_map.mpr ⟨x, hx, rfl⟩)
  simpa using this

theorem lastSkipped_new {force : Bool} : ∀ (fs M : FMap), fs ≠ [] → (fs.keys ++ M.keys).Nodup → M.lastSkipped force fs = false := by
  intro fs
  induction fs with
  | nil => intro M h _; exact absurd rfl h
  | cons x fs ih =>
    intro M _ hnd
    obtain ⟨n, d⟩ := x
    have hnd' := List.nodup_cons.mp (show (n :: (FMap.keys fs ++ FMap.keys M)).Nodup from hnd)
    have hn : n ∉ M.keys := fun hx => hnd'.1 (List.mem_append_right _ hx)
    cases fs with
    | nil => simp [FMap.lastSkipped, hn]
    | cons y fs =>
      have hperm : (FMap.keys (y :: fs) ++ FMap.keys ((n, d) :: M)).Perm (FMap.keys ((n, d) :: y :: fs) ++ FMap.keys M) := List.perm_middle
      rw [FMap.lastSkipped, FMap.addOne, if_neg (by simp [hn]), FMap.put, del_new hn]
      · exact ih _ (by simp) (hperm.nodup_iff.mpr hnd)
      · simp

theorem addLegal_newG {P : Bytes → Bytes → Prop} {cap : Nat} {force : Bool} : ∀ (fs M : FMap), (fs.keys ++ M.keys).Nodup → (∀ x ∈ fs, P x.1 x.2) →
    M.length + fs.length ≤ cap → AddLegalG P cap force M fs := by
  intro fs
  induction fs with
  | nil => intro M _ _ _; trivial
  | cons x fs ih =>
    intro M hnd hc hlen
    obtain ⟨n, d⟩ := x
    rw [List.length_cons] at hlen
    have hnd' := List.nodup_cons.mp (show (n :: (FMap.keys fs ++ FMap.keys M)).Nodup from hnd)
    have hn : n ∉ M.keys := fun hx => hnd'.1 (List.mem_append_right _ hx)
    have hperm : (FMap.keys fs ++ FMap.keys ((n, d) :: M)).Perm (FMap.keys ((n, d) :: fs) ++ FMap.keys M) := List.perm_middle
    refine ⟨hc (n, d) List.mem_cons_self, by rw [del_new hn]; omega, ?_⟩
    rw [FMap.addOne, if_neg (by simp [hn]), FMap.put, del_new hn]
    exact ih _ (hperm.nodup_iff.mpr hnd) (fun x hx => hc x (List.mem_cons_of_mem _ hx)) (by rw [List.length_cons]; omega)

theorem addLegal_new {force : Bool} : ∀ (fs M : FMap), (fs.keys ++ M.keys).Nodup → (∀ x ∈ fs, Canon83 x.1 ∧ x.2 ≠ []) →
    M.length + fs.length ≤ 64 → AddLegal force M fs := by
  intro fs
  induction fs with
  | nil => intro M _ _ _; trivial
  | cons x fs ih =>
    intro M hnd hc hlen
    obtain ⟨n, d⟩ := x
    rw [List.length_cons] at hlen
    have hnd' := List.nodup_cons.mp (show (n :: (FMap.keys fs ++ FMap.keys M)).Nodup from hnd)
    have hn : n ∉ M.keys := fun hx => hnd'.1 (List.mem_append_right _ hx)
    have hcd := hc (n, d) List.mem_cons_self
    have hperm : (FMap.keys fs ++ FMap.keys ((n, d) :: M)).Perm (FMap.keys ((n, d) :: fs) ++ FMap.keys M) := List.perm_middle
    refine ⟨hcd.1, hcd.2, by rw [del_new hn]; omega, ?_⟩
    rw [FMap.addOne, if_neg (by simp [hn]), FMap.put, del_new hn]
    exact ih _ (hperm.nodup_iff.mpr hnd) (fun x hx => hc x (List.mem_cons_of_mem _ hx)) (by rw [List.length_cons]; omega)

theorem Holds.perm {h : AHeader} {b : Bytes} {M M' : FMap} (hh : Holds h b M) (hp : M.Perm M') : Holds h b M' := by
  obtain ⟨m, ds, h1, h2, h3, h4, h5⟩ := hh
  exact ⟨m, ds, h1, h2, h3, h4, h5.trans (hp.map _)⟩

/-- a file of a consistent volume is not empty -/
theorem Holds.nonempty {h : AHeader} {b : Bytes} {M : FMap} (hh : Holds h b M) : ∀ x ∈ M, x.2 ≠ [] := by
  obtain ⟨m, ds, h1, h2, h3, h4, h5⟩ := hh
  intro x hx
  have : (x.1, (Except.ok x.2 : Except Err Bytes)) ∈ m.listing := h5.symm.subset (List.mem_map.mpr ⟨x, hx, rfl⟩)
  obtain ⟨d, hd, he⟩ := List.mem_map.mp this
  injection he with _ he
  have hf : m.files = ds.filter (·.inUse) := by rw [h2.eq]; rfl
  rw [hf] at hd
  obtain ⟨hd, hu⟩ := List.mem_filter.mp hd
  obtain ⟨l, l1, l2, _⟩ := h2.2.chains d hd (by simpa using hu)
  unfold ADirent.getFile at he
  rw [l1] at he
  simp only [if_neg l2] at he
  unfold gather at he
  split at he
  · injection he with he
    rw [← he]
    simpa using l2
  · exact absurd he (by simp)

variable {W : World}

/-- **C110, adding many files.** One `add` with any list of files of the machine: if the names are new, in 8.3 form and different
from each other, no file is empty and there is room for all of them, then all of them are on the disk afterwards, with their
contents, beside the files that were there. -/
theorem C110_add_all {hd : AHeader} (hmax : hd.maxSectors < 1280) {name b : Bytes} (hn : name ≠ [0x2e]) {M fs : FMap} {h : Host}
    {force : Bool} {ft : List Char} {paths : List Bytes} (hb : h.files.get name = some b) (hh : Holds hd b M) (ha : AtariFile W.libs hd b)
    (hp : paths.map (fun p => (baseName p, h.files.get p)) = fs.map fun x => (x.1, some x.2))
    (hnd : (fs.keys ++ M.keys).Nodup) (hc : ∀ x ∈ fs, Canon83 x.1 ∧ x.2 ≠ []) (hlen : M.length + fs.length ≤ 64)
    (hfit : (fs.map fun x => sectorsNeeded hd x.2.length).sum ≤ (freePool hd b).length) :
    ((Command.add force ft paths).main W false name h).1 = .ok () ∧
    Stores W.libs hd name (fs ++ M) ((Command.add force ft paths).main W false name h).2 ∧
    ∀ q, q ≠ name → ((Command.add force ft paths).main W false name h).2.files.get q = h.files.get q := by
  obtain ⟨m, segs, k, hopen, hi⟩ := stores_detect ⟨hh, ha⟩
  have hcont : ∀ p ∈ paths, h.files.get p = some ((h.files.get p).getD []) := by
    intro p hpp
    have : (baseName p, h.files.get p) ∈ fs.map fun x => (x.1, some x.2) := by
      rw [← hp]; exact List.mem_map.mpr ⟨p, hpp, rfl⟩
    obtain ⟨x, _, hx⟩ := List.mem_map.mp this
    injection hx with _ hx
    rw [← hx]; rfl
  have hfs : paths.map (fun p => (baseName p, (h.files.get p).getD [])) = fs := by
    have := congrArg (List.map fun x : Bytes × Option Bytes => (x.1, x.2.getD [])) hp
    rw [List.map_map, List.map_map] at this
    refine this.trans ?_
    conv => rhs; rw [← List.map_id fs]
    exact List.map_congr_left (fun x _ => rfl)
  have hl : (Cmd.add fs).Legal { force := force } M := addLegal_new fs M hnd hc hlen
  have hc82 := C82_add (dry := false) (force := force) (ft := ft) (paths := paths) hn hb hi rfl hcont
  rw [hfs] at hc82
  have hst := keeps_cmd (atari_keeper W hmax) ⟨hh, ha⟩ trivial (t := filetypeChar ft) hl hc82 (fun _ _ => trivial)
  obtain ⟨e, -, -⟩ := C80_history (t := filetypeChar ft) hmax [({ force := force }, .add fs)] b M hh ha ⟨hl, trivial⟩
  have hok : ((Cmd.add fs).run atariDriver { force := force } b).1 = .ok () := by
    obtain ⟨m', ds, h1, h2, h3, h4, h5⟩ := id hh
    have r : Rep hd m' M := ⟨ds, h2, h4, h5⟩
    obtain ⟨m'', c', q1⟩ := addLoop_fits (o := { force := force }) rfl fs M m' false r hnd hc hlen (by rw [h4, h3]; exact hfit)
    unfold Cmd.run
    rw [show atariDriver.load b = .ok m' from h1]
    simp only
    rw [show Cmd.exec atariDriver { force := force } (.add fs) m' = (.ok c', m'') from q1]
    cases c' <;> rfl
  have e2 : ((Cmd.add fs).run (imageDriver W.libs (filetypeChar ft)) { force := force } b).1 = .ok () := by
    have := congrArg Prod.fst e
    simp only [runHistory] at this
    injection this with this
    rw [this]; exact hok
  have e3 : ((Command.add force ft paths).main W false name h).1 = .ok () := by rw [hc82.1]; erw [e2]; rfl
  rw [e3] at hst
  refine ⟨e3, ?_, fun q hq => by rw [hc82.2.2, if_neg hq]⟩
  obtain ⟨b', g1, g2, g3⟩ := hst
  refine ⟨b', g1, ?_, g3⟩
  refine Holds.perm g2 ?_
  simp only [Cmd.spec, Bool.false_or]
  by_cases hf : fs = []
  · subst hf; exact List.Perm.refl _
  · rw [lastSkipped_new fs M hf hnd]
    simp only [Bool.false_eq_true, if_false]
    rw [addAll_new fs M hnd]
    exact (List.reverse_perm fs).append_right M

/-- the last part of a path is the name of the file if the name has no slash in it -/
theorem baseName_path {x : XOpts} (hl : x.lower = false) {n : Bytes} (hn : (0x2f : UInt8) ∉ n) : baseName (x.path n) = n := by
  have all : ∀ c ∈ n.reverse, decide (c ≠ 0x2f) = true := by
    intro c hc
    rw [List.mem_reverse] at hc
    exact decide_eq_true (fun e => hn (e ▸ hc))
  have whole : ∀ d : Bytes, baseName (d ++ 0x2f :: n) = n := by
    intro d
    unfold baseName
    rw [List.reverse_append, List.reverse_cons, List.append_assoc, List.takeWhile_append_of_pos all]
    simp
  have alone : baseName n = n := by
    unfold baseName
    have := List.takeWhile_append_of_pos (l₂ := []) all
    rw [List.append_nil] at this
    rw [this]; simp
  unfold XOpts.path
  rw [hl]
  simp only [Bool.false_eq_true, if_false]
  cases x.dir with
  | none => exact alone
  | some d =>
    simp only
    split
    · exact alone
    · next hd =>
      unfold joinPath
      rw [if_neg (show ¬ n.head? = some 0x2f from fun e => hn (List.mem_of_mem_head? e))]
      split
      · next hx =>
        rcases hx with hx | hx
        · exact absurd hx hd
        · have : d = d.dropLast ++ [0x2f] := by
            rw [List.getLast?_eq_some_getLast hd] at hx
            injection hx with hx
            rw [← hx, List.dropLast_concat_getLast]
          rw [this, List.append_assoc]
          exact whole _
      · exact whole _

/-- **C110, copying a disk.** `extract -a` on an Atari disk, `create` of a second one from a blank template, and one `add` with
the extracted files, in any order: if the names have no slash in them, fit in the directory with their contents, and are not
written over the images, then the second disk holds the files of the first, and the first is as it was. -/
theorem C110_copy {hd hd2 : AHeader} (hmax : hd2.maxSectors < 1280) {src dst text n t b : Bytes} {x : XOpts} {M fs : FMap} {h : Host}
    (hns : src ≠ [0x2e]) (hnd : dst ≠ [0x2e]) (hb : h.files.get src = some b) (hh : Holds hd b M) (hA : AtariFile W.libs hd b)
    (hnone : h.files.get dst = none) (ht : Selects W text (n, t)) (ht0 : Holds hd2 t []) (ha : AtariFile W.libs hd2 t)
    (hx : x.all = true) (hxf : x.force = true) (hxt : x.text = false) (hxl : x.lower = false)
    (hkeys : M.keys.Nodup) (hc : ∀ y ∈ M, Canon83 y.1 ∧ (0x2f : UInt8) ∉ y.1) (hout : ∀ y ∈ M, x.path y.1 ≠ src ∧ x.path y.1 ≠ dst)
    (hfs : fs.Perm M) (hlen : M.length ≤ 64) (hfit : (M.map fun y => sectorsNeeded hd2 y.2.length).sum ≤ (freePool hd2 t).length) :
    let s := runs W [⟨false, src, .extract x []⟩, ⟨false, dst, .create false text⟩, ⟨false, dst, .add false [] (fs.keys.map x.path)⟩] h
    (∀ r ∈ s.1, r = .ok ()) ∧ Stores W.libs hd2 dst M s.2 ∧ s.2.files.get src = some b := by
  intro s
  have hslash : ∀ k ∈ M.keys, k.head? ≠ some 0x2f := by
    intro k hk e
    obtain ⟨y, hy, rfl⟩ := List.mem_map.mp hk
    exact (hc y hy).2 (List.mem_of_mem_head? e)
  have hsd : dst ≠ src := fun e => by rw [e, hb] at hnone; cases hnone
  obtain ⟨x1, x2⟩ := C84_extract hns ⟨b, hb, hh, hA⟩ (C59_apart hxl hkeys hslash) []
  have foot := C82_footprint W false src (.extract x []) h
  generalize hE : (Command.extract x []).main W false src h = E at x1 x2 foot
  obtain ⟨m, segs, k, hopen, hi⟩ := stores_detect ⟨hh, hA⟩
  have nott : ∀ p, (∀ y ∈ M, x.path y.1 ≠ p) → E.2.files.get p = h.files.get p := by
    intro p hp
    refine foot.same p ?_
    rintro ⟨-, b', i', k', n', g1, g2, g3, -, g4⟩
    rw [hb] at g1
    injection g1 with g1
    subst g1
    rw [hi] at g2
    injection g2 with g2
    injection g2 with g2 _
    subst g2
    obtain ⟨m', ds, q1, q2, q3, q4, q5⟩ := id hh
    rw [hopen] at q1
    injection q1 with q1
    subst q1
    have : n' ∈ M.keys := by
      have := (q5.map (·.1)).subset g3
      rw [List.map_map] at this
      exact this
    obtain ⟨y, hy, rfl⟩ := List.mem_map.mp this
    exact hp y hy g4.symm
  have hnone1 : E.2.files.get dst = none := by rw [nott dst (fun y hy => (hout y hy).2), hnone]
  have hsrc1 : E.2.files.get src = some b := by rw [nott src (fun y hy => (hout y hy).1), hb]
  have c3 := (C83_create W false text dst E.2 hnd).1 _ ht (.inr hnone1)
  have c1 : ((Command.create false text).main W false dst E.2).1 = .ok () := by
    obtain ⟨m, segs, k, -, hi⟩ := stores_detect ⟨ht0, ha⟩
    rw [C83_result hnd ht (.inr hnone1), hi]; rfl
  generalize hC : (Command.create false text).main W false dst E.2 = C at c1 c3
  have getC : ∀ p, C.2.files.get p = if p = dst then some t else E.2.files.get p := by
    intro p
    rw [c3]
    show (E.2.files.put dst t).get p = _
    rw [get_put]
  have hmem : ∀ y ∈ fs, y ∈ M := fun y hy => hfs.subset hy
  have hne := hh.nonempty
  obtain ⟨a1, a2, a3⟩ := C110_add_all (W := W) hmax hnd (h := C.2) (fs := fs) (M := []) (force := false) (ft := []) (paths := fs.keys.map x.path)
    (by rw [getC, if_pos rfl]) ht0 ha
    (by
      unfold FMap.keys
      rw [List.map_map, List.map_map]
      refine List.map_congr_left fun y hy => ?_
      have hy' := hmem y hy
      simp only [Function.comp]
      rw [baseName_path hxl (hc y hy').2, getC, if_neg (hout y hy').2]
      have := x2 y.1 y.2 hy' (.inl hx)
      rw [hxf, hxt] at this
      rw [this]
      split <;> first | rfl | (next h0 => cases h0))
    (by
      show (fs.keys ++ []).Nodup
      rw [List.append_nil]
      exact (List.Perm.map Prod.fst hfs).nodup_iff.mpr hkeys)
    (fun y hy => ⟨(hc y (hmem y hy)).1, hne y (hmem y hy)⟩)
    (by rw [hfs.length_eq]; simpa using hlen)
    (by rw [(hfs.map fun y => sectorsNeeded hd2 y.2.length).sum_nat]; exact hfit)
  have hs : s = ([E.1, C.1, ((Command.add false [] (fs.keys.map x.path)).main W false dst C.2).1],
      ((Command.add false [] (fs.keys.map x.path)).main W false dst C.2).2) := by
    simp only [s, runs, hE, hC]
  rw [hs]
  refine ⟨?_, ?_, ?_⟩
  · intro r hr
    simp only [List.mem_cons, List.not_mem_nil, or_false] at hr
    rcases hr with rfl | rfl | rfl
    · exact x1
    · exact c1
    · exact a1
  · obtain ⟨b', g1, g2, g3⟩ := a2
    rw [List.append_nil] at g2
    exact ⟨b', g1, g2.perm hfs, g3⟩
  · rw [a3 src hsd.symm, getC, if_neg hsd.symm, hsrc1]

/-! ### DOS 3.3 -/

theorem Holds33.perm {cat : List Nat} {b : Bytes} {M M' : FMap} (hh : Holds33 cat b M) (hp : M.Perm M') : Holds33 cat b M' := by
  obtain ⟨m, ds, h1, h2, h3, h4⟩ := hh
  exact ⟨m, ds, h1, h2, h3, h4.trans (hp.map _)⟩

/-- **C110, adding many files, DOS 3.3.** As on Atari disks, for every file type but text, if `zipfile` finds no archive in the
image before and after. -/
theorem C110_add_all33 {cat : List Nat} {name b : Bytes} (hn : name ≠ [0x2e]) {M fs : FMap} {h : Host}
    {force : Bool} {ft : List Char} (hft : filetypeChar ft ≠ 'T') {paths : List Bytes} (hb : h.files.get name = some b)
    (hh : Holds33 cat b M) (ha : Dos33File W.libs b) (hz : W.libs.zip b = .ok none)
    (hz' : ∀ b', ((Command.add force ft paths).main W false name h).2.files.get name = some b' → W.libs.zip b' = .ok none)
    (hp : paths.map (fun p => (baseName p, h.files.get p)) = fs.map fun x => (x.1, some x.2))
    (hnd : (fs.keys ++ M.keys).Nodup) (hc : ∀ x ∈ fs, Fits33 x.1 x.2) (hlen : M.length + fs.length ≤ 7 * (cat.length - 1))
    (hfit : (fs.map fun x => cost33 x.2).sum ≤ (freePool33 b).length) :
    ((Command.add force ft paths).main W false name h).1 = .ok () ∧
    StoresAs (Dos33Disk W.libs cat) name (fs ++ M) ((Command.add force ft paths).main W false name h).2 ∧
    ∀ q, q ≠ name → ((Command.add force ft paths).main W false name h).2.files.get q = h.files.get q := by
  obtain ⟨m, segs, k, hopen, hi⟩ := detect33 ⟨hh, ha⟩ hz
  have hcont : ∀ p ∈ paths, h.files.get p = some ((h.files.get p).getD []) := by
    intro p hpp
    have : (baseName p, h.files.get p) ∈ fs.map fun x => (x.1, some x.2) := by
      rw [← hp]; exact List.mem_map.mpr ⟨p, hpp, rfl⟩
    obtain ⟨x, _, hx⟩ := List.mem_map.mp this
    injection hx with _ hx
    rw [← hx]; rfl
  have hfs : paths.map (fun p => (baseName p, (h.files.get p).getD [])) = fs := by
    have := congrArg (List.map fun x : Bytes × Option Bytes => (x.1, x.2.getD [])) hp
    rw [List.map_map, List.map_map] at this
    refine this.trans ?_
    conv => rhs; rw [← List.map_id fs]
    exact List.map_congr_left (fun x _ => rfl)
  have hl : (Cmd.add fs).LegalG Fits33 (7 * (cat.length - 1)) { force := force } M := addLegal_newG fs M hnd hc hlen
  have hc82 := C82_add (dry := false) (force := force) (ft := ft) (paths := paths) hn hb hi rfl hcont
  rw [hfs] at hc82
  have hst := keeps_cmd (dos33_keeper W cat) ⟨hh, ha⟩ hz (t := filetypeChar ft) ⟨hft, hl⟩ hc82 hz'
  have hok : ((Cmd.add fs).run (dos33Driver (filetypeChar ft)) { force := force } b).1 = .ok () := by
    obtain ⟨m', ds, h1, h2, h3, h4⟩ := id hh
    have r : Rep33 cat m' M := ⟨ds, h2, h4⟩
    obtain ⟨m'', c', q1⟩ := addLoop_fits33 (o := { force := force }) hft rfl fs M m' false r hnd hc hlen (by rw [h3]; exact hfit)
    unfold Cmd.run
    rw [show (dos33Driver (filetypeChar ft)).load b = .ok m' from h1]
    simp only
    rw [show Cmd.exec (dos33Driver (filetypeChar ft)) { force := force } (.add fs) m' = (.ok c', m'') from q1]
    cases c' <;> rfl
  have e2 : ((Cmd.add fs).run (imageDriver W.libs (filetypeChar ft)) { force := force } b).1 = .ok () := by
    rw [(C80_dos33 (detect_load hi) _ _).2.1]
    rw [(open33_ok hopen).2.1]
    exact hok
  have e3 : ((Command.add force ft paths).main W false name h).1 = .ok () := by rw [hc82.1]; erw [e2]; rfl
  rw [e3] at hst
  refine ⟨e3, ?_, fun q hq => by rw [hc82.2.2, if_neg hq]⟩
  obtain ⟨b', g1, g2, g3⟩ := hst
  refine ⟨b', g1, ?_, g3⟩
  refine Holds33.perm g2 ?_
  simp only [Cmd.spec, Bool.false_or]
  by_cases hf : fs = []
  · subst hf; exact List.Perm.refl _
  · rw [lastSkipped_new fs M hf hnd]
    simp only [Bool.false_eq_true, if_false]
    rw [addAll_new fs M hnd]
    exact (List.reverse_perm fs).append_right M

theorem padded33_idem (d : Bytes) : padded33 (padded33 d) = padded33 d := by
  have : (padded33 d).length % 256 = 0 := by
    unfold padded33
    rw [List.length_append, List.length_replicate]
    omega
  generalize padded33 d = e at this
  unfold padded33
  rw [this]
  simp

theorem padded33_ne {d : Bytes} (h : d ≠ []) : padded33 d ≠ [] := by
  unfold padded33
  simp [h]

theorem cost33_padded (d : Bytes) : cost33 (padded33 d) = cost33 d := by
  have : dataSecs33 (padded33 d).length = dataSecs33 d.length := by
    unfold dataSecs33 padded33
    rw [List.length_append, List.length_replicate]
    omega
  unfold cost33 listSecs33
  rw [this]

/-- a file with its contents filled up to whole sectors -/
def pad33 (y : Bytes × Bytes) : Bytes × Bytes := (y.1, padded33 y.2)

/-- **C110, copying a DOS 3.3 disk.** `extract -a`, `create` and one `add` of the extracted files, in any order: the second disk holds
the files of the first with the same contents.  (All files get the one type given to `add`.) -/
theorem C110_copy33 {cat cat2 : List Nat} {src dst text n t b : Bytes} {ft : List Char} (hft : filetypeChar ft ≠ 'T') {x : XOpts} {M fs : FMap} {h : Host}
    (hns : src ≠ [0x2e]) (hnd : dst ≠ [0x2e]) (hb : h.files.get src = some b) (hh : Holds33 cat b M) (hA : Dos33File W.libs b) (hzb : W.libs.zip b = .ok none)
    (hnone : h.files.get dst = none) (ht : Selects W text (n, t)) (ht0 : Holds33 cat2 t []) (ha : Dos33File W.libs t) (hzt : W.libs.zip t = .ok none)
    (hx : x.all = true) (hxf : x.force = true) (hxt : x.text = false) (hxl : x.lower = false)
    (hkeys : M.keys.Nodup) (hc : ∀ y ∈ M, Fits33 y.1 y.2 ∧ (0x2f : UInt8) ∉ y.1) (hout : ∀ y ∈ M, x.path y.1 ≠ src ∧ x.path y.1 ≠ dst)
    (hfs : fs.Perm M) (hlen : M.length ≤ 7 * (cat2.length - 1)) (hfit : (M.map fun y => cost33 y.2).sum ≤ (freePool33 t).length)
    (hz : ∀ b', (runs W [⟨false, src, .extract x []⟩, ⟨false, dst, .create false text⟩, ⟨false, dst, .add false ft (fs.keys.map x.path)⟩] h).2.files.get dst = some b' →
      W.libs.zip b' = .ok none) :
    let s := runs W [⟨false, src, .extract x []⟩, ⟨false, dst, .create false text⟩, ⟨false, dst, .add false ft (fs.keys.map x.path)⟩] h
    (∀ r ∈ s.1, r = .ok ()) ∧ StoresAs (Dos33Disk W.libs cat2) dst M s.2 ∧ s.2.files.get src = some b := by
  intro s
  have hslash : ∀ k ∈ M.keys, k.head? ≠ some 0x2f := by
    intro k hk e
    obtain ⟨y, hy, rfl⟩ := List.mem_map.mp hk
    exact (hc y hy).2 (List.mem_of_mem_head? e)
  have hsd : dst ≠ src := fun e => by rw [e, hb] at hnone; cases hnone
  obtain ⟨x1, x2⟩ := C84_extract33 hns ⟨b, hb, hh, hA⟩ (fun b' hb' => by rw [hb] at hb'; injection hb' with e; rw [← e]; exact hzb) (C59_apart hxl hkeys hslash) []
  have foot := C82_footprint W false src (.extract x []) h
  generalize hE : (Command.extract x []).main W false src h = E at x1 x2 foot
  obtain ⟨m, segs, k, hopen, hi⟩ := detect33 ⟨hh, hA⟩ hzb
  have nott : ∀ p, (∀ y ∈ M, x.path y.1 ≠ p) → E.2.files.get p = h.files.get p := by
    intro p hp
    refine foot.same p ?_
    rintro ⟨-, b', i', k', n', g1, g2, g3, -, g4⟩
    rw [hb] at g1
    injection g1 with g1
    subst g1
    rw [hi] at g2
    injection g2 with g2
    injection g2 with g2 _
    subst g2
    obtain ⟨m', ds, q1, q2, q3, q4⟩ := id hh
    rw [hopen] at q1
    injection q1 with q1
    subst q1
    have : n' ∈ M.keys := by
      have := (q4.map (·.1)).subset g3
      rw [List.map_map] at this
      exact this
    obtain ⟨y, hy, rfl⟩ := List.mem_map.mp this
    exact hp y hy g4.symm
  have hnone1 : E.2.files.get dst = none := by rw [nott dst (fun y hy => (hout y hy).2), hnone]
  have hsrc1 : E.2.files.get src = some b := by rw [nott src (fun y hy => (hout y hy).1), hb]
  have c3 := (C83_create W false text dst E.2 hnd).1 _ ht (.inr hnone1)
  have c1 : ((Command.create false text).main W false dst E.2).1 = .ok () := by
    obtain ⟨m, segs, k, -, hi⟩ := detect33 ⟨ht0, ha⟩ hzt
    rw [C83_result hnd ht (.inr hnone1), hi]; rfl
  generalize hC : (Command.create false text).main W false dst E.2 = C at c1 c3
  have getC : ∀ p, C.2.files.get p = if p = dst then some t else E.2.files.get p := by
    intro p
    rw [c3]
    show (E.2.files.put dst t).get p = _
    rw [get_put]
  have hmem : ∀ y ∈ fs, y ∈ M := fun y hy => hfs.subset hy
  have hs : s = ([E.1, C.1, ((Command.add false ft (fs.keys.map x.path)).main W false dst C.2).1],
      ((Command.add false ft (fs.keys.map x.path)).main W false dst C.2).2) := by
    simp only [s, runs, hE, hC]
  have hkeys' : FMap.keys (fs.map pad33) = fs.keys := by
    unfold FMap.keys
    rw [List.map_map]; rfl
  have hz2 : ∀ b', ((Command.add false ft (fs.keys.map x.path)).main W false dst C.2).2.files.get dst = some b' → W.libs.zip b' = .ok none := by
    intro b' hb'
    refine hz b' ?_
    rw [show runs W _ h = s from rfl, hs]
    exact hb'
  obtain ⟨a1, a2, a3⟩ := C110_add_all33 (W := W) hnd (h := C.2) (fs := fs.map pad33) (M := []) (force := false) hft (paths := fs.keys.map x.path)
    (by rw [getC, if_pos rfl]) ht0 ha hzt hz2
    (by
      unfold FMap.keys
      rw [List.map_map, List.map_map, List.map_map]
      refine List.map_congr_left fun y hy => ?_
      have hy' := hmem y hy
      simp only [Function.comp]
      rw [baseName_path hxl (hc y hy').2, getC, if_neg (hout y hy').2]
      have := x2 y.1 y.2 hy' (.inl hx)
      rw [hxf, hxt] at this
      rw [this]
      split <;> first | rfl | (next h0 => cases h0))
    (by
      show (FMap.keys (fs.map pad33) ++ []).Nodup
      rw [List.append_nil, hkeys']
      exact (List.Perm.map Prod.fst hfs).nodup_iff.mpr hkeys)
    (by
      intro y hy
      obtain ⟨z, hz, rfl⟩ := List.mem_map.mp hy
      obtain ⟨⟨f1, f2, f3⟩, -⟩ := hc z (hmem z hz)
      exact ⟨f1, f2, padded33_ne f3⟩)
    (by rw [List.length_map, hfs.length_eq]; simpa using hlen)
    (by
      rw [List.map_map]
      have : (fun y : Bytes × Bytes => cost33 y.2) ∘ pad33 = fun y => cost33 y.2 := by
        funext y; exact cost33_padded y.2
      rw [this, (hfs.map fun y => cost33 y.2).sum_nat]; exact hfit)
  rw [hs]
  refine ⟨?_, ?_, ?_⟩
  · intro r hr
    simp only [List.mem_cons, List.not_mem_nil, or_false] at hr
    rcases hr with rfl | rfl | rfl
    · exact x1
    · exact c1
    · exact a1
  · obtain ⟨b', g1, ⟨m', ds', g2, g3, g4, g5⟩, g6⟩ := a2
    refine ⟨b', g1, ⟨m', ds', g2, g3, g4, ?_⟩, g6⟩
    rw [List.append_nil, List.map_map] at g5
    refine g5.trans ?_
    have : (fun y : Bytes × Bytes => (y.1, (Except.ok (padded33 y.2) : Except Err Bytes))) ∘ pad33 =
        fun y => (y.1, .ok (padded33 y.2)) := by
      funext y; simp only [Function.comp, pad33]; rw [padded33_idem]
    rw [this]
    exact hfs.map _
  · rw [a3 src hsd.symm, getC, if_neg hsd.symm, hsrc1]

/-! ### examples -/

def copyFiles : FMap := [(nameA, dataA), (ascii "B.DAT", [1, 2, 3])]

/-- a machine with two files on it and a new disk -/
def copyHost : Host := { files := [(ascii "in/A.TXT", dataA), (ascii "in/B.DAT", [1, 2, 3]), (ascii "OLD.ATR", sdDisk)] }

theorem copyFiles_ok : ∀ y ∈ copyFiles, Canon83 y.1 ∧ y.2 ≠ [] := by
  intro y hy
  simp only [copyFiles, List.mem_cons, List.not_mem_nil, or_false] at hy
  rcases hy with rfl | rfl
  · exact ⟨⟨by decide, by decide⟩, dataA_ne⟩
  · exact ⟨⟨by decide +kernel, by decide +kernel⟩, by decide⟩

theorem copyFiles_fit : (copyFiles.map fun y => sectorsNeeded sdH y.2.length).sum ≤ (freePool sdH sdDisk).length := by
  rw [sdDisk_pool]; decide +kernel

/-- two files are added to a disk, and the disk is copied to a second one, through a directory and in the other order -/
example : ∃ b, ((Command.add false [] [ascii "in/A.TXT", ascii "in/B.DAT"]).main tripWorld false (ascii "OLD.ATR") copyHost).2.files.get (ascii "OLD.ATR") = some b ∧
    Holds sdH b copyFiles ∧
    Stores magicLibs sdH (ascii "NEW.ATR") copyFiles
      (runs tripWorld [⟨false, ascii "OLD.ATR", .extract { all := true, force := true, dir := some (ascii "out") } []⟩,
        ⟨false, ascii "NEW.ATR", .create false (ascii "dos2sd.atr")⟩,
        ⟨false, ascii "NEW.ATR", .add false [] [ascii "out/B.DAT", ascii "out/A.TXT"]⟩]
        ((Command.add false [] [ascii "in/A.TXT", ascii "in/B.DAT"]).main tripWorld false (ascii "OLD.ATR") copyHost).2).2 := by
  obtain ⟨-, ⟨b, b1, b2, b3⟩, b4⟩ := C110_add_all (W := tripWorld) (name := ascii "OLD.ATR") (h := copyHost) (fs := copyFiles) (M := []) (force := false) (ft := [])
    (paths := [ascii "in/A.TXT", ascii "in/B.DAT"]) (hd := sdH) (by decide) (by decide) (b := sdDisk) rfl holds_sd atariFile_sd rfl (by decide +kernel)
    copyFiles_ok (by decide) copyFiles_fit
  change Holds sdH b copyFiles at b2
  refine ⟨b, b1, b2, ?_⟩
  exact (C110_copy (W := tripWorld) (hd := sdH) (hd2 := sdH) (fs := copyFiles.reverse) (x := { all := true, force := true, dir := some (ascii "out") })
    (by decide) (by decide) (by decide) b1 b2 b3 (by rw [b4 _ (by decide +kernel)]; rfl) trip_selects holds_sd atariFile_sd rfl rfl rfl rfl (by decide +kernel)
    (by
      intro y hy
      refine ⟨(copyFiles_ok y hy).1, ?_⟩
      simp only [copyFiles, List.mem_cons, List.not_mem_nil, or_false] at hy
      rcases hy with rfl | rfl <;> decide +kernel)
    (by
      intro y hy
      simp only [copyFiles, List.mem_cons, List.not_mem_nil, or_false] at hy
      rcases hy with rfl | rfl <;> decide +kernel)
    (List.reverse_perm _) (by decide) copyFiles_fit).2.1

/-- the same for DOS 3.3, with a world that has the blank DOS 3.3 disk; the file of three bytes comes out filled up to a sector, and
is copied like that -/
example (b : Bytes) (hh : Holds33 catBlank33 b copyFiles) (hA : Dos33File magicLibs b) (W : World) (hW : W.libs = magicLibs)
    (hsel : Selects W (ascii "dos33.dsk") (ascii "dos33.dsk", blank33)) :
    StoresAs (Dos33Disk magicLibs catBlank33) (ascii "NEW.DSK") copyFiles
      (runs W [⟨false, ascii "OLD.DSK", .extract { all := true, force := true, dir := some (ascii "out") } []⟩,
        ⟨false, ascii "NEW.DSK", .create false (ascii "dos33.dsk")⟩,
        ⟨false, ascii "NEW.DSK", .add false ['A'] [ascii "out/A.TXT", ascii "out/B.DAT"]⟩] { files := [(ascii "OLD.DSK", b)] }).2 := by
  have := (C110_copy33 (W := W) (cat := catBlank33) (cat2 := catBlank33) (fs := copyFiles) (M := copyFiles) (ft := ['A']) (text := ascii "dos33.dsk") (b := b) (t := blank33)
    (src := ascii "OLD.DSK") (dst := ascii "NEW.DSK") (x := { all := true, force := true, dir := some (ascii "out") }) (h := { files := [(ascii "OLD.DSK", b)] })
    (by decide) (by decide +kernel) (by decide +kernel) rfl hh (by rw [hW]; exact hA) (by rw [hW]; rfl) rfl hsel holds_blank33
    (by rw [hW]; exact dos33File_blank _) (by rw [hW]; rfl) rfl rfl rfl rfl (by decide +kernel)
    (by
      intro y hy
      simp only [copyFiles, List.mem_cons, List.not_mem_nil, or_false] at hy
      rcases hy with rfl | rfl
      · exact ⟨⟨by decide +kernel, show ∀ c ∈ _, c < 0x80 by decide +kernel, dataA_ne⟩, by decide +kernel⟩
      · exact ⟨⟨by decide +kernel, show ∀ c ∈ _, c < 0x80 by decide +kernel, by decide⟩, by decide +kernel⟩)
    (by
      intro y hy
      simp only [copyFiles, List.mem_cons, List.not_mem_nil, or_false] at hy
      rcases hy with rfl | rfl <;> decide +kernel)
    (List.Perm.refl _) (by decide +kernel) (by rw [template33_pool blank33_template]; decide +kernel) (fun b' _ => by rw [hW]; rfl)).2.1
  rw [hW] at this
  exact this

end Atr
