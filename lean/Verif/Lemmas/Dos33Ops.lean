import Verif.Lemmas.Dos33Mounted
/-! # DOS 3.3: deleting, shredding and failing operations on opened volumes -/
namespace Atr

/-! ### delete -/

theorem delete33_mounted {b cs ds} (c : Consistent33 b cs ds) {name : Bytes} (hn : name ∈ (mount33 b ds).names) :
    ∃ b' ds' L1 L2 d ts map, DImg.deleteFile name (mount33 b ds) = (.ok (), mount33 b' ds') ∧ Consistent33 b' cs ds' ∧
      (mount33 b ds).listing = L1 ++ (name, d.ftype, d.getFile 560 b) :: L2 ∧ (mount33 b' ds').listing = L1 ++ L2 ∧
      d ∈ (mount33 b ds).files ∧ d.filename = name ∧ FileSecs b d ts map ∧
      (∀ s, IsFree33 b' s ↔ IsFree33 b s ∨ s ∈ ts ++ map) ∧ (∀ s ∈ ts ++ map, ¬ IsFree33 b s) ∧
      ∀ s, s ≠ 272 → s ∉ cs → sec33 b' s = sec33 b s := by
  obtain ⟨d, hd, hdn⟩ := List.mem_map.mp hn
  have hd' : d ∈ ds.filter (fun d => !d.deleted) := hd
  obtain ⟨hdm, hdl⟩ := List.mem_filter.mp hd'
  have hl : d.deleted = false := by simpa using hdl
  obtain ⟨k, hk⟩ := List.getElem?_of_mem hdm
  obtain ⟨b', ts, map, hf, w⟩ := deleteBody33_ok c hk hl
  have c' := deleted33_consistent c hk hl hf w
  have g2 := deleted33_getFile c w
  have hget := getElem?_del33 hk
  generalize hA : entriesDel33 ds k d = A at c' hget
  have hlA : A.length = ds.length := by
    rw [← hA]; unfold entriesDel33; rw [List.length_mapIdx, List.length_set]
  have hAk : A[k]? = some (d.markDeleted.reread k) := by rw [hget, if_pos rfl]
  have hold : ∀ (i : Nat) (d e : DDirent), i ≠ k → ds[i]? = some d → A[i]? = some e →
      e.deleted = d.deleted ∧ (d.deleted = false → view33 b' e = view33 b d) := by
    intro i d e hik hd he
    rw [hget, if_neg hik, hd, Option.map_some] at he
    injection he with he
    subst he
    have ho := oldEntry_reread c hd
    exact ⟨ho.live, fun hl => view33_old ho hl (g2 i d hd hl)⟩
  have e1 := filter_map_old (g := view33 b) (g' := view33 b') (ds.take k) (A.take k)
    (by rw [List.length_take, List.length_take, hlA])
    (fun i d e hd he => by
      rw [List.getElem?_take] at hd he
      by_cases hik : i < k
      · rw [if_pos hik] at hd he; exact hold i d e (by omega) hd he
      · rw [if_neg hik] at hd; cases hd)
  have e2 := filter_map_old (g := view33 b) (g' := view33 b') (ds.drop (k + 1)) (A.drop (k + 1))
    (by rw [List.length_drop, List.length_drop, hlA])
    (fun i d e hd he => by
      rw [List.getElem?_drop] at hd he
      exact hold _ d e (by omega) hd he)
  have hb := w.body
  rw [hdn] at hb
  refine ⟨b', A, ((ds.take k).filter (fun d => !d.deleted)).map (view33 b), ((ds.drop (k + 1)).filter (fun d => !d.deleted)).map (view33 b),
    d, ts, map, transaction33_ok hb c', c', ?_, ?_, hd, hdn, hf, w.free, ?_, w.others⟩
  · rw [listing33]
    conv => lhs; rw [take_drop_get hk]
    rw [List.filter_append, List.filter_cons_of_pos (by rw [hl]; rfl), List.map_append, List.map_cons]
    congr 2
    unfold view33
    rw [hdn]
  · rw [listing33]
    conv => lhs; rw [take_drop_get hAk]
    rw [List.filter_append, List.filter_cons_of_neg (by rw [(deleted33_entry c hk).1]; simp), List.map_append, e1, e2]
  · obtain ⟨ts', map', f1, _, _, f4⟩ := c.files d hdm hl
    obtain ⟨rfl, rfl⟩ := hf.unique f1
    exact fun s hs => (f4 s hs).2

/-- a name no entry has -/
theorem delete33_missing {b cs ds} (c : Consistent33 b cs ds) {name : Bytes} (hn : ∀ d ∈ ds, d.filename ≠ name) :
    DImg.deleteFile name (mount33 b ds) = (.error .fileNotFound, mount33 b ds) := by
  refine transaction33_err rfl ?_ c
  unfold DImg.deleteBody
  rw [getDirectory33 c]
  simp only
  have : findDirentIdx33 ds name = .error .fileNotFound := by
    unfold findDirentIdx33
    have : ds.findIdx? (fun d => d.filename == name) = none := by
      rw [List.findIdx?_eq_none_iff]
      intro d hd
      simpa using hn d hd
    rw [this]
  rw [this]
  rfl

/-! ### shred -/

theorem shred33_mounted {b cs ds} (c : Consistent33 b cs ds) (fill : Nat) :
    ∃ b', DImg.shred fill (mount33 b ds) = (.ok (), mount33 b' ds) ∧ Consistent33 b' cs ds ∧
      (mount33 b' ds).listing = (mount33 b ds).listing ∧
      (∀ s, IsFree33 b s → sec33 b' s = List.replicate 256 (UInt8.ofNat fill)) ∧
      (∀ s, ¬ IsFree33 b s → sec33 b' s = sec33 b s) := by
  obtain ⟨b', w⟩ := shredBody33_ok c fill
  have c' := shredded33_consistent c w
  refine ⟨b', transaction33_ok w.body c', c', ?_, w.filled, w.others⟩
  rw [listing33, listing33]
  refine filter_map_old ds ds rfl ?_
  intro i d e hd he
  rw [hd] at he
  injection he with he
  subst he
  exact ⟨rfl, fun hl => view33_old (OldEntry.refl d) hl (shredded33_getFile c w d (List.mem_of_getElem? hd) hl)⟩

/-! ### failing writes -/

theorem write33_noData {b cs ds} (c : Consistent33 b cs ds) {name data : Bytes} {ftype : Nat}
    (h : (freePool33 b).length < dataSecs33 data.length) :
    DImg.writeFile name ftype data (mount33 b ds) = (.error .notEnoughSpace, mount33 b ds) := by
  cases writeCase c name ftype data with
  | noData _ r => exact transaction33_err rfl r c
  | noList b1 h1 _ v r => omega
  | empty h1 r => subst h1; unfold dataSecs33 at h; simp at h
  | catalog b1 first e1 _ _ h1 v _ r => omega
  | ok b' h1 _ _ r => omega

theorem write33_noList {b cs ds} (c : Consistent33 b cs ds) {name data : Bytes} {ftype : Nat}
    (h : dataSecs33 data.length ≤ (freePool33 b).length)
    (h' : (freePool33 b).length < dataSecs33 data.length + listSecs33 data.length) :
    ∃ b', DImg.writeFile name ftype data (mount33 b ds) = (.error .notEnoughSpace, mount33 b' ds) ∧
      VtocLess b b' (dataSecs33 data.length) := by
  cases writeCase c name ftype data with
  | noData h1 r => omega
  | noList b1 h1 _ v r => exact ⟨b1, transaction33_err (v.size.trans c.size.symm) r (vtocLess_consistent c v), v⟩
  | empty h1 r => subst h1; unfold listSecs33 dataSecs33 at h'; simp at h'
  | catalog b1 first e1 _ _ h1 v _ r => omega
  | ok b' h1 _ _ r => omega

theorem write33_empty {b cs ds} (c : Consistent33 b cs ds) {name : Bytes} {ftype : Nat} :
    DImg.writeFile name ftype [] (mount33 b ds) = (.error .indexError, mount33 b ds) := by
  cases writeCase c name ftype [] with
  | noData h1 r => unfold dataSecs33 at h1; simp at h1
  | noList b1 h1 h2 v r => unfold listSecs33 dataSecs33 at h2; simp at h2
  | empty h1 r => exact transaction33_err rfl r c
  | catalog b1 first e1 _ h1 _ v _ r => exact absurd rfl h1
  | ok b' _ h1 _ r => exact absurd rfl h1

/-- no free slot: the catalog cannot be written -/
theorem calcCat_full {b cs ds} (c : Consistent33 b cs ds) {b1 : Bytes} {n : Nat} (v : VtocLess b b1 n) {ds' : List DDirent}
    (henc : ∀ d ∈ ds', d.Encodable) (hlen : 7 * (cs.length - 1) < ds'.length) :
    DImg.calcCatSectors { mount33 b ds with bytes := b1 } ds' = .error .noSpaceInDirectory := by
  obtain ⟨encs, e1, e2, e3, e4⟩ := encodeAll33_ok ds' henc
  have hnee : encs ≠ [] := by intro h; rw [h] at e2; simp at e2; omega
  have hws := calcSectors33 hnee e3
  have hwl : (calcSectors freshCatSec encs).length = (chunks 7 encs).length := by have := congrArg List.length hws; simpa using this
  unfold DImg.calcCatSectors
  rw [e1]
  have hch : Chain33 b1 (linkOf (sec33 b 272)) cs := c.cat.frame (fun x hx => by rw [v.others x (fun h => c.cat272 (h ▸ hx))])
  refine numberCat_full v.size _ hch ?_ ?_
  · intro h0
    have h0 : linkOf (sec33 b 272) = 0 := h0
    have := c.cat
    rw [h0] at this
    cases this with
    | nil => exact c.catNe rfl
    | cons h _ _ => exact h rfl
  · rw [hwl, length_chunks 7 (by omega), e2]
    have := List.length_pos_iff.mpr c.catNe
    omega

theorem write33_catFull {b cs ds} (c : Consistent33 b cs ds) {name data : Bytes} {ftype : Nat} (hne : data ≠ [])
    (ha : Ascii33 name) (ht : ftype < 128) (hs : 7 * (cs.length - 1) ≤ (mount33 b ds).files.length)
    (hk : dataSecs33 data.length + listSecs33 data.length ≤ (freePool33 b).length) :
    ∃ b', DImg.writeFile name ftype data (mount33 b ds) = (.error .noSpaceInDirectory, mount33 b' ds) ∧
      VtocLess b b' (dataSecs33 data.length + listSecs33 data.length) := by
  have hfl : (ds.filter (fun d => !d.deleted)).length = ds.length ∧ ds.length = 7 * (cs.length - 1) := by
    have h1 : (ds.filter (fun d => !d.deleted)).length ≤ ds.length := List.length_filter_le _ _
    have h2 : 7 * (cs.length - 1) ≤ (ds.filter (fun d => !d.deleted)).length := hs
    have := c.room
    omega
  have hall : ∀ d ∈ ds, d.deleted = false := by
    have := List.length_filter_eq_length_iff.mp hfl.1
    intro d hd
    simpa using this d hd
  have hidx : getFreeDirent33 ds = ds.length := by
    obtain ⟨f1, f2, f3⟩ := getFreeDirent33_spec ds
    refine Nat.le_antisymm f1 (Nat.le_of_not_lt fun hlt => ?_)
    have := f2 _ (List.getElem?_eq_getElem hlt)
    rw [hall _ (List.getElem_mem hlt)] at this
    cases this
  have henc : ∀ first, first < 560 → ∀ d ∈ setDirent33 ds (getFreeDirent33 ds) (rawEntry33 name ftype (dataSecs33 data.length + listSecs33 data.length) first), d.Encodable := by
    intro first hf d hd
    obtain ⟨i, hi⟩ := List.getElem?_of_mem hd
    rw [getElem?_setDirent33 (getFreeDirent33_spec ds).1] at hi
    split at hi
    · injection hi with hi; rw [← hi]; exact rawEntry33_ok ha ht hf
    · exact (c.entry hi).1
  have hfull : ∀ {b1 first}, first < 560 → VtocLess b b1 (dataSecs33 data.length + listSecs33 data.length) →
      DImg.calcCatSectors { mount33 b ds with bytes := b1 } (setDirent33 ds (getFreeDirent33 ds)
        (rawEntry33 name ftype (dataSecs33 data.length + listSecs33 data.length) first)) = .error .noSpaceInDirectory := by
    intro b1 first hf v
    refine calcCat_full c v (henc first hf) ?_
    rw [length_setDirent33 (getFreeDirent33_spec ds).1, hidx]
    omega
  cases writeCase c name ftype data with
  | noData h1 r => omega
  | noList b1 h1 h2 v r => omega
  | empty h1 r => exact absurd h1 hne
  | catalog b1 first e1 hf _ h1 v hc r =>
    rw [hfull hf v] at hc
    injection hc with hc
    subst hc
    exact ⟨b1, transaction33_err (v.size.trans c.size.symm) r (vtocLess_consistent c v), v⟩
  | ok b' h1 _ hc r =>
    obtain ⟨b1, first, cat, hf, v, hc⟩ := hc
    rw [hfull hf v] at hc
    cases hc

/-- a name with a character outside ASCII -/
theorem write33_nonAscii {b cs ds} (c : Consistent33 b cs ds) {name data : Bytes} {ftype : Nat} (hne : data ≠ [])
    (ha : ¬ Ascii33 name) (hk : dataSecs33 data.length + listSecs33 data.length ≤ (freePool33 b).length) :
    ∃ b', DImg.writeFile name ftype data (mount33 b ds) = (.error .valueError, mount33 b' ds) ∧
      VtocLess b b' (dataSecs33 data.length + listSecs33 data.length) := by
  have henc : ∀ (l : List DDirent) (x : DDirent), x ∈ l → x.encode = .error .valueError → (∀ d ∈ l, d ≠ x → d.Encodable) →
      encodeAll33 l = .error .valueError := by
    intro l
    induction l with
    | nil => intro x hx; cases hx
    | cons d l ih =>
      intro x hx he ho
      simp only [encodeAll33]
      by_cases hd : d = x
      · subst hd; rw [he]
      · obtain ⟨y, hy, _⟩ := encode33_ok (ho d (by simp) hd)
        rw [hy]
        simp only
        rw [ih x (by rcases List.mem_cons.mp hx with h | h; exact absurd h.symm hd; exact h) he (fun z hz => ho z (by simp [hz]))]
  have hbad : ∀ n first, (rawEntry33 name ftype n first).encode = .error .valueError := by
    intro n first
    unfold DDirent.encode
    rw [if_pos]
    intro hc
    refine ha fun ch hch => hc ch ?_
    show ch ∈ padRight 30 (name.take 30)
    exact List.mem_append_left _ hch
  have hfull : ∀ {b1 : Bytes} {first}, DImg.calcCatSectors { mount33 b ds with bytes := b1 } (setDirent33 ds (getFreeDirent33 ds)
        (rawEntry33 name ftype (dataSecs33 data.length + listSecs33 data.length) first)) = .error .valueError := by
    intro b1 first
    unfold DImg.calcCatSectors
    rw [henc _ (rawEntry33 name ftype (dataSecs33 data.length + listSecs33 data.length) first) ?_ (hbad _ _) ?_]
    · refine List.mem_of_getElem? (i := getFreeDirent33 ds) ?_
      rw [getElem?_setDirent33 (getFreeDirent33_spec ds).1, if_pos rfl]
    · intro d hd hdn
      obtain ⟨i, hi⟩ := List.getElem?_of_mem hd
      rw [getElem?_setDirent33 (getFreeDirent33_spec ds).1] at hi
      split at hi
      · injection hi with hi; exact absurd hi.symm hdn
      · exact (c.entry hi).1
  cases writeCase c name ftype data with
  | noData h1 r => omega
  | noList b1 h1 h2 v r => omega
  | empty h1 r => exact absurd h1 hne
  | catalog b1 first e1 hf _ h1 v hc r =>
    rw [hfull] at hc
    injection hc with hc
    subst hc
    exact ⟨b1, transaction33_err (v.size.trans c.size.symm) r (vtocLess_consistent c v), v⟩
  | ok b' h1 _ hc r =>
    obtain ⟨b1, first, cat, hf, v, hc⟩ := hc
    rw [hfull] at hc
    cases hc

/-- exactly when a write succeeds -/
theorem write33_ok_iff {b cs ds} (c : Consistent33 b cs ds) {name data : Bytes} {ftype : Nat} (ht : ftype < 128) (ht0 : ftype ≠ 0)
    (hname : norm33 name ∉ (mount33 b ds).names) :
    (DImg.writeFile name ftype data (mount33 b ds)).1 = .ok () ↔ data ≠ [] ∧ Ascii33 name ∧
      (mount33 b ds).files.length < 7 * (cs.length - 1) ∧ dataSecs33 data.length + listSecs33 data.length ≤ (freePool33 b).length := by
  constructor
  · intro h
    have hne : data ≠ [] := by intro hd; subst hd; rw [write33_empty c] at h; cases h
    have hk : dataSecs33 data.length + listSecs33 data.length ≤ (freePool33 b).length := by
      refine Nat.le_of_not_lt fun hlt => ?_
      by_cases h1 : dataSecs33 data.length ≤ (freePool33 b).length
      · obtain ⟨b', h2, _⟩ := write33_noList c (name := name) (ftype := ftype) h1 hlt
        rw [h2] at h; cases h
      · rw [write33_noData c (by omega)] at h; cases h
    have ha : Ascii33 name := by
      refine Classical.byContradiction fun hna => ?_
      obtain ⟨b', h2, _⟩ := write33_nonAscii c (ftype := ftype) hne hna hk
      rw [h2] at h; cases h
    refine ⟨hne, ha, Nat.lt_of_not_le fun hle => ?_, hk⟩
    obtain ⟨b', h2, _⟩ := write33_catFull c hne ha ht hle hk
    rw [h2] at h; cases h
  · rintro ⟨h1, h2, h3, h4⟩
    obtain ⟨b', ds', L1, L2, h5, _⟩ := write33_mounted c h1 h2 ht ht0 h3 hname h4
    rw [h5]

/-- a failing write changes at most the bitmap -/
theorem write33_fails {b cs ds} (c : Consistent33 b cs ds) {name data : Bytes} {ftype : Nat} {e : Err} {m' : DImg}
    (ht : ftype < 128) (ht0 : ftype ≠ 0) (hname : norm33 name ∉ (mount33 b ds).names)
    (h : DImg.writeFile name ftype data (mount33 b ds) = (.error e, m')) :
    ∃ b' n, m' = mount33 b' ds ∧ VtocLess b b' n := by
  have h0 : VtocLess b b 0 := ⟨c.size, ⟨fun _ _ => rfl⟩, fun s => by simp, fun _ _ => rfl⟩
  by_cases hne : data = []
  · subst hne; rw [write33_empty c] at h; cases h; exact ⟨b, 0, rfl, h0⟩
  by_cases h1 : dataSecs33 data.length ≤ (freePool33 b).length
  · by_cases hk : dataSecs33 data.length + listSecs33 data.length ≤ (freePool33 b).length
    · by_cases ha : Ascii33 name
      · by_cases hs : (mount33 b ds).files.length < 7 * (cs.length - 1)
        · have := (write33_ok_iff c ht ht0 hname).mpr ⟨hne, ha, hs, hk⟩
          rw [h] at this; cases this
        · obtain ⟨b2, h2, v⟩ := write33_catFull c hne ha ht (Nat.le_of_not_lt hs) hk
          rw [h2] at h; cases h; exact ⟨b2, _, rfl, v⟩
      · obtain ⟨b2, h2, v⟩ := write33_nonAscii c (ftype := ftype) hne ha hk
        rw [h2] at h; cases h; exact ⟨b2, _, rfl, v⟩
    · obtain ⟨b2, h2, v⟩ := write33_noList c (name := name) (ftype := ftype) h1 (by omega)
      rw [h2] at h; cases h; exact ⟨b2, _, rfl, v⟩
  · rw [write33_noData c (by omega)] at h; cases h; exact ⟨b, 0, rfl, h0⟩

end Atr
