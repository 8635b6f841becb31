import Verif.Lemmas.Dos33Delete
/-! # DOS 3.3: operations on opened volumes -/
namespace Atr

/-! ### transactions -/

theorem rollback33 (m : DImg) : m.rollback ⟨0, m.bytes.length⟩ = m := by
  unfold DImg.rollback View.read
  have : slice m.bytes 0 (0 + m.bytes.length) = m.bytes := by simp [slice]
  simp only [this]
  have : splice m.bytes 0 m.bytes = m.bytes := by simp [splice]
  rw [this]

theorem transaction33_ok {b b' cs ds ds'} {body : Proc DImg Unit}
    (h : body (mount33 b ds) = (.ok (), { mount33 b ds with bytes := b' })) (c' : Consistent33 b' cs ds') :
    DImg.transaction body (mount33 b ds) = (.ok (), mount33 b' ds') := by
  unfold DImg.transaction
  rw [h]
  exact getMetadata33 c' rfl rfl rfl c'.first_lt

theorem transaction33_error {body : Proc DImg Unit} {m m1 m2 : DImg} {e : Err} (hl : m1.bytes.length = m.bytes.length)
    (h : body m = (.error e, m1)) (hm : DImg.getMetadata m1 = (.ok (), m2)) : DImg.transaction body m = (.error e, m2) := by
  unfold DImg.transaction
  rw [h]
  simp only
  rw [← hl, rollback33, ite_self, hm]

theorem transaction33_err {b b' cs ds ds' e} {body : Proc DImg Unit} (hl : b'.length = b.length)
    (h : body (mount33 b ds) = (.error e, { mount33 b ds with bytes := b' })) (c' : Consistent33 b' cs ds') :
    DImg.transaction body (mount33 b ds) = (.error e, mount33 b' ds') :=
  transaction33_error hl h (getMetadata33 c' rfl rfl rfl c'.first_lt)

/-! ### listings -/

/-- entries that keep their state and view give the same listing -/
theorem filter_map_old {β} {g g' : DDirent → β} : ∀ (l l' : List DDirent), l'.length = l.length →
    (∀ (i : Nat) (d e : DDirent), l[i]? = some d → l'[i]? = some e → e.deleted = d.deleted ∧ (d.deleted = false → g' e = g d)) →
    (l'.filter (fun d => !d.deleted)).map g' = (l.filter (fun d => !d.deleted)).map g := by
  intro l
  induction l with
  | nil => intro l' hl _; have := List.length_eq_zero_iff.mp (show l'.length = 0 by simpa using hl); subst this; rfl
  | cons d l ih =>
    intro l' hl h
    match l', hl with
    | e :: l', hl =>
      have h0 := h 0 d e rfl rfl
      have := ih l' (by simpa using hl) (fun i x y hx hy => h (i + 1) x y (by simpa using hx) (by simpa using hy))
      rw [List.filter_cons, List.filter_cons, h0.1]
      cases hd : d.deleted with
      | true => simpa using this
      | false => simp [this, h0.2 hd]

theorem take_drop_get {α} {l : List α} {k : Nat} {x : α} (h : l[k]? = some x) : l = l.take k ++ x :: l.drop (k + 1) := by
  obtain ⟨h1, h2⟩ := List.getElem?_eq_some_iff.mp h
  conv => lhs; rw [← List.take_append_drop k l, List.drop_eq_getElem_cons h1, h2]

def view33 (b : Bytes) (d : DDirent) : Bytes × Nat × Except Err Bytes := (d.filename, d.ftype, d.getFile 560 b)

theorem listing33 (b : Bytes) (ds : List DDirent) : (mount33 b ds).listing = (ds.filter (fun d => !d.deleted)).map (view33 b) := rfl

theorem listing33_names (m : DImg) : m.listing.map (·.1) = m.names := by
  unfold DImg.listing DImg.names; rw [List.map_map]; rfl

theorem view33_old {b b' : Bytes} {d e : DDirent} (ho : OldEntry d e) (hl : d.deleted = false) (hg : e.getFile 560 b' = d.getFile 560 b) :
    view33 b' e = view33 b d := by
  unfold view33
  rw [ho.name, ho.type (by rw [ho.live]; exact hl), hg]

theorem consistent33_nodup {b cs ds} (c : Consistent33 b cs ds) : (mount33 b ds).names.Nodup := by
  show ((ds.filter (fun d => !d.deleted)).map (·.filename)).Nodup
  rw [List.Nodup, List.pairwise_map]
  have hp : ds.Pairwise fun d e => d.deleted = false → e.deleted = false → d.filename ≠ e.filename := by
    rw [List.pairwise_iff_getElem]
    intro i j hi hj hij _ hl
    exact c.first j i _ _ (List.getElem?_eq_getElem hj) (List.getElem?_eq_getElem hi) hl hij
  refine (hp.filter _).imp_of_mem ?_
  intro d e hd he h
  have h1 := (List.mem_filter.mp hd).2
  have h2 := (List.mem_filter.mp he).2
  exact h (by simpa using h1) (by simpa using h2)

theorem mounted33_nodup {m cs ds} (h : Mounted33 m cs ds) : m.names.Nodup := by
  obtain ⟨c, hm⟩ := mounted33_iff.mp h
  rw [hm]; exact consistent33_nodup c

/-- every listed file is readable -/
theorem mounted33_readable {m cs ds} (h : Mounted33 m cs ds) : ∀ x ∈ m.listing, ∃ data, x.2.2 = .ok data := by
  obtain ⟨c, hm⟩ := mounted33_iff.mp h
  intro x hx
  rw [hm, listing33] at hx
  obtain ⟨d, hd, rfl⟩ := List.mem_map.mp hx
  obtain ⟨h1, h2⟩ := List.mem_filter.mp hd
  obtain ⟨ts, map, _, _, _, _, h5⟩ := c.contents h1 (by simpa using h2)
  exact ⟨_, h5⟩

theorem find33_of_listing {m : DImg} {name : Bytes} {t : Nat} {r : Except Err Bytes} (hnd : m.names.Nodup)
    (h : (name, t, r) ∈ m.listing) : m.findFile name = r := by
  obtain ⟨d, hd, he⟩ := List.mem_map.mp h
  have hfn : d.filename = name := congrArg (·.1) he
  have hr : d.getFile m.maxSectors m.bytes = r := congrArg (·.2.2) he
  have hfd : m.findDirent name = .ok d := by
    unfold DImg.findDirent
    cases hf : m.files.find? (fun d => d.filename == name) with
    | none =>
      rw [List.find?_eq_none] at hf
      have := hf d hd
      simp [hfn] at this
    | some d' =>
      have hm := List.mem_of_find?_eq_some hf
      have hn : d'.filename = name := by simpa using List.find?_some hf
      have : d' = d := by
        obtain ⟨i, hi⟩ := List.getElem?_of_mem hm
        obtain ⟨j, hj⟩ := List.getElem?_of_mem hd
        obtain ⟨i1, i2⟩ := List.getElem?_eq_some_iff.mp hi
        obtain ⟨j1, j2⟩ := List.getElem?_eq_some_iff.mp hj
        have hpw := List.pairwise_iff_getElem.mp hnd
        have hli : i < m.names.length := by unfold DImg.names; rw [List.length_map]; exact i1
        have hlj : j < m.names.length := by unfold DImg.names; rw [List.length_map]; exact j1
        have gi : m.names[i] = name := by simp only [DImg.names, List.getElem_map, i2, hn]
        have gj : m.names[j] = name := by simp only [DImg.names, List.getElem_map, j2, hfn]
        have : i = j := by
          rcases Nat.lt_trichotomy i j with hlt | heq | hgt
          · exact absurd (gi.trans gj.symm) (hpw i j hli hlj hlt)
          · exact heq
          · exact absurd (gj.trans gi.symm) (hpw j i hlj hli hgt)
        subst this
        rw [← i2, ← j2]
      rw [this]
  unfold DImg.findFile
  rw [hfd]
  exact hr

theorem find33_missing {m : DImg} {name : Bytes} (h : name ∉ m.names) :
    m.findDirent name = .error .fileNotFound ∧ m.findFile name = .error .fileNotFound := by
  have : m.findDirent name = .error .fileNotFound := by
    unfold DImg.findDirent
    have : m.files.find? (fun d => d.filename == name) = none := by
      rw [List.find?_eq_none]
      intro d hd he
      exact h (by rw [← (by simpa using he : d.filename = name)]; exact List.mem_map_of_mem hd)
    rw [this]
  refine ⟨this, ?_⟩
  unfold DImg.findFile
  rw [this]

/-! ### writing -/

theorem freePool33_congr {b b' : Bytes} (h : ∀ s, IsFree33 b' s ↔ IsFree33 b s) : freePool33 b' = freePool33 b := by
  unfold freePool33
  refine List.filter_congr fun s _ => ?_
  exact decide_eq_decide.mpr (h s)

theorem filter_not_take {l : List Nat} (hnd : l.Nodup) (n : Nat) : l.filter (fun s => decide (s ∉ l.take n)) = l.drop n := by
  have hnd' := hnd
  rw [← List.take_append_drop n l, List.nodup_append] at hnd'
  conv => lhs; arg 2; rw [← List.take_append_drop n l]
  rw [List.filter_append]
  have h1 : (l.take n).filter (fun s => decide (s ∉ l.take n)) = [] := by
    rw [List.filter_eq_nil_iff]; intro a ha; simp [ha]
  have h2 : (l.drop n).filter (fun s => decide (s ∉ l.take n)) = l.drop n := by
    rw [List.filter_eq_self]
    intro a ha
    exact decide_eq_true fun h => hnd'.2.2 a h a ha rfl
  rw [h1, h2, List.nil_append]

theorem freePool33_taken {b b' : Bytes} {n : Nat} (h : ∀ s, IsFree33 b' s ↔ IsFree33 b s ∧ s ∉ (freePool33 b).take n) :
    freePool33 b' = (freePool33 b).drop n := by
  rw [← filter_not_take (freePool33_nodup b)]
  conv => rhs; arg 2; unfold freePool33
  rw [List.filter_filter]
  unfold freePool33
  refine List.filter_congr fun s _ => ?_
  rw [← Bool.decide_and]
  exact decide_eq_decide.mpr ((h s).trans And.comm)

/-- a slot is available -/
theorem getFreeDirent33_lt {b cs ds} (c : Consistent33 b cs ds) (h : (mount33 b ds).files.length < 7 * (cs.length - 1)) :
    getFreeDirent33 ds < 7 * (cs.length - 1) := by
  obtain ⟨h1, h2, h3⟩ := getFreeDirent33_spec ds
  by_cases hl : getFreeDirent33 ds < ds.length
  · have := c.room; omega
  · have he : getFreeDirent33 ds = ds.length := by omega
    have hall : ds.filter (fun d => !d.deleted) = ds := by
      rw [List.filter_eq_self]
      intro d hd
      obtain ⟨i, hi⟩ := List.getElem?_of_mem hd
      have hil := (List.getElem?_eq_some_iff.mp hi).1
      rw [h3 i d (by omega) hi]; rfl
    have : (mount33 b ds).files.length = ds.length := by
      show (ds.filter (fun d => !d.deleted)).length = _
      rw [hall]
    omega

theorem write33_mounted {b cs ds} (c : Consistent33 b cs ds) {name data : Bytes} {ftype : Nat} (hne : data ≠ [])
    (ha : Ascii33 name) (ht : ftype < 128) (ht0 : ftype ≠ 0) (hs : (mount33 b ds).files.length < 7 * (cs.length - 1))
    (hname : norm33 name ∉ (mount33 b ds).names)
    (hk : dataSecs33 data.length + listSecs33 data.length ≤ (freePool33 b).length) :
    ∃ b' ds' L1 L2, DImg.writeFile name ftype data (mount33 b ds) = (.ok (), mount33 b' ds') ∧ Consistent33 b' cs ds' ∧
      (mount33 b ds).listing = L1 ++ L2 ∧
      (mount33 b' ds').listing = L1 ++ (norm33 name, ftype, .ok (padded33 data)) :: L2 ∧
      freePool33 b' = (freePool33 b).drop (dataSecs33 data.length + listSecs33 data.length) ∧
      (∃ d ts map, d ∈ (mount33 b' ds').files ∧ d.filename = norm33 name ∧ FileSecs b' d ts map ∧
        map ++ ts = (freePool33 b).take (dataSecs33 data.length + listSecs33 data.length) ∧ map.length = dataSecs33 data.length) ∧
      ∀ s, s ≠ 272 → s ∉ cs → s ∉ (freePool33 b).take (dataSecs33 data.length + listSecs33 data.length) → sec33 b' s = sec33 b s := by
  have hidx := getFreeDirent33_lt c hs
  obtain ⟨b', order, tsOrder, map1, map2, w⟩ := writeBody33_ok c hne ha ht hidx hk
  have c' := written33_consistent c hne ht0 hidx hname w
  have nf := newFile33_spec c hne w
  obtain ⟨g1, g2⟩ := written33_getFile c hne w
  obtain ⟨fs1, fs2, fs3⟩ := getFreeDirent33_spec ds
  have hget := getElem?_after33 ds name (ftype := ftype) nf.first1 nf.first2 nf.n
  generalize hA : entriesAfter33 ds name ftype (dataSecs33 data.length + listSecs33 data.length) (tsOrder.headD 0) = A at c' hget
  have hlA : A.length = max ds.length (getFreeDirent33 ds + 1) := by
    rw [← hA]; unfold entriesAfter33; rw [List.length_mapIdx, length_setDirent33 fs1]
  generalize hkk : getFreeDirent33 ds = k at *
  generalize hne' : newEntry33 name ftype k (dataSecs33 data.length + listSecs33 data.length) (tsOrder.headD 0) = ne at *
  have hAk : A[k]? = some ne := by rw [hget, if_pos rfl, hne']
  have hold : ∀ (i : Nat) (d e : DDirent), i ≠ k → ds[i]? = some d → A[i]? = some e →
      e.deleted = d.deleted ∧ (d.deleted = false → view33 b' e = view33 b d) := by
    intro i d e hik hd he
    rw [hget, if_neg hik, hd, Option.map_some] at he
    injection he with he
    subst he
    have ho := oldEntry_reread c hd
    exact ⟨ho.live, fun hl => view33_old ho hl (g2 i d hd hl)⟩
  have e1 := filter_map_old (g := view33 b) (g' := view33 b') (ds.take k) (A.take k)
    (by rw [List.length_take, List.length_take, hlA]; omega)
    (fun i d e hd he => by
      rw [List.getElem?_take] at hd he
      by_cases hik : i < k
      · rw [if_pos hik] at hd he; exact hold i d e (by omega) hd he
      · rw [if_neg hik] at hd; cases hd)
  have e2 := filter_map_old (g := view33 b) (g' := view33 b') (ds.drop (k + 1)) (A.drop (k + 1))
    (by rw [List.length_drop, List.length_drop, hlA]; omega)
    (fun i d e hd he => by
      rw [List.getElem?_drop] at hd he
      exact hold _ d e (by omega) hd he)
  refine ⟨b', A, ((ds.take k).filter (fun d => !d.deleted)).map (view33 b), ((ds.drop (k + 1)).filter (fun d => !d.deleted)).map (view33 b),
    transaction33_ok w.body c', c', ?_, ?_, ?_, ?_, ?_⟩
  · rw [listing33, ← List.map_append, ← List.filter_append]
    cases hdk : ds[k]? with
    | none =>
      have : ds.length ≤ k := by simpa using hdk
      rw [List.take_of_length_le this, List.drop_eq_nil_of_le (by omega), List.append_nil]
    | some d =>
      conv => lhs; rw [take_drop_get hdk]
      rw [List.filter_append, List.filter_append, List.filter_cons_of_neg (by simp [fs2 d hdk])]
  · rw [listing33]
    conv => lhs; rw [take_drop_get hAk]
    rw [List.filter_append, List.filter_cons_of_pos (by rw [← hne']; rfl), List.map_append, List.map_cons, e1, e2]
    congr 2
    unfold view33
    rw [g1, ← hne']
    rfl
  · exact freePool33_taken (fun s => by rw [nf.free, w.res.all])
  · refine ⟨ne, tsOrder, order, ?_, by rw [← hne']; rfl, by have := nf.secs; rw [hkk, hne'] at this; exact this, w.res.all, w.res.len1⟩
    exact List.mem_filter.mpr ⟨List.mem_of_getElem? hAk, by rw [← hne']; rfl⟩
  · intro s h1 h2 h3
    exact w.others s h1 h2 (by rw [w.res.all]; exact h3)

/-! ### failing writes -/

/-- the first `n` free sectors have been marked used in the VTOC, nothing else has changed -/
structure VtocLess (b b' : Bytes) (n : Nat) : Prop where
  size : b'.length = 143360
  kept : VtocKept b b'
  free : ∀ s, IsFree33 b' s ↔ IsFree33 b s ∧ s ∉ (freePool33 b).take n
  others : ∀ s, s ≠ 272 → sec33 b' s = sec33 b s

theorem VtocLess.pool {b b' n} (h : VtocLess b b' n) : freePool33 b' = (freePool33 b).drop n := freePool33_taken h.free

theorem vtocLess_consistent {b b' cs ds n} (c : Consistent33 b cs ds) (w : VtocLess b b' n) : Consistent33 b' cs ds := by
  have hcs : ∀ x ∈ cs, sec33 b' x = sec33 b x := fun x hx => w.others x (fun h => c.cat272 (h ▸ hx))
  refine c.step (k := ds.length) w.size (w.others 0 (by omega)) w.kept
    (c.cat.frame (fun x hx => by rw [hcs x hx])) (by rw [catRaw_frame hcs]; exact c.dir) (by rw [catRaw_frame hcs]; exact c.term) c.room
    (fun s hs => c.free s ((w.free s).mp hs).1) (fun i d hi _ => ⟨d, hi, OldEntry.refl d⟩) ?_ ?_ c.first
  · intro i d0 _ hi hl ts map hf x hx
    obtain ⟨ts1, map1, g1, _, _, g4⟩ := c.files d0 (List.mem_of_getElem? hi) hl
    obtain ⟨rfl, rfl⟩ := hf.unique g1
    obtain ⟨u, u5⟩ := g4 x hx
    exact ⟨w.others x u.2.2.1, fun h => u5 ((w.free x).mp h).1⟩
  · intro d hd
    simp at hd

theorem vtocLess_listing {b b' cs ds n} (c : Consistent33 b cs ds) (w : VtocLess b b' n) :
    (mount33 b' ds).listing = (mount33 b ds).listing := by
  rw [listing33, listing33]
  refine filter_map_old ds ds rfl ?_
  intro i d e hd he
  rw [hd] at he
  injection he with he
  subst he
  refine ⟨rfl, fun hl => view33_old (OldEntry.refl d) hl ?_⟩
  refine c.contents_old w.size (List.mem_of_getElem? hd) hl (OldEntry.refl d) ?_
  intro ts map hf x hx
  obtain ⟨ts1, map1, g1, _, _, g4⟩ := c.files d (List.mem_of_getElem? hd) hl
  obtain ⟨rfl, rfl⟩ := hf.unique g1
  exact w.others x (g4 x hx).1.2.2.1

theorem vtocLess_store {b : Bytes} (hb : b.length = 143360) {n : Nat} {map : List Bool}
    (hm : ∀ i : Nat, map[i]? = if i ∈ (freePool33 b).take n then some false else (vtocMap33 (sec33 b 272))[i]?) {b' : Bytes}
    (hl : b'.length = 143360) (h : sec33 b' 272 = vtocStore33 (sec33 b 272) map) (ho : ∀ s, s ≠ 272 → sec33 b' s = sec33 b s) :
    VtocLess b b' n := by
  refine ⟨hl, vtocKept_store hb h, ?_, ho⟩
  intro s
  rw [isFree33_store hl (length_sec33 hb (by omega)) h, hm, isFree33_iff hb]
  by_cases hs : s ∈ (freePool33 b).take n
  · rw [if_pos hs]; simp [hs]
  · rw [if_neg hs]
    exact ⟨fun x => ⟨x.2, hs⟩, fun x => ⟨((isFree33_iff hb s).mpr x.1).1, x.1⟩⟩

theorem numberCat_writable {b : Bytes} : ∀ (ws : List WSector) (s : Nat) (cat : List WSector), (∀ w ∈ ws, w.data.length = 256) →
    numberCatSecs 560 b s ws = .ok cat → Writable33 cat := by
  intro ws
  induction ws with
  | nil => intro s cat _ h; injection h with h; subst h; intro w hw; cases hw
  | cons w ws ih =>
    intro s cat hl h
    simp only [numberCatSecs] at h
    split at h
    · cases h
    · rename_i hs
      split at h
      · cases h
      · split at h
        · cases h
        · split at h
          · cases h
          · rename_i ws' hws
            injection h with h
            subst h
            intro x hx
            rcases List.mem_cons.mp hx with rfl | hx
            · refine ⟨by show s < 560; omega, ?_⟩
              show (splice w.data 1 (tsBytes _)).length = 256
              have := hl w (by simp)
              rw [length_splice _ _ _ (by rw [this]; simp [tsBytes]), this]
            · exact ih _ _ (fun y hy => hl y (by simp [hy])) hws x hx

theorem encode33_length {d : DDirent} {e : Bytes} (h : d.encode = .ok e) : e.length = 35 := by
  unfold DDirent.encode at h
  split at h
  · cases h
  · split at h
    · cases h
    · injection h with h
      subst h
      cases d.deleted <;> simp [enc16] <;> omega

theorem encodeAll33_length : ∀ (ds : List DDirent) (encs : List Bytes), encodeAll33 ds = .ok encs →
    encs.length = ds.length ∧ ∀ e ∈ encs, e.length = 35 := by
  intro ds
  induction ds with
  | nil => intro encs h; injection h with h; subst h; exact ⟨rfl, fun e he => by cases he⟩
  | cons d ds ih =>
    intro encs h
    simp only [encodeAll33] at h
    split at h
    · cases h
    · rename_i x hx
      split at h
      · cases h
      · rename_i xs hxs
        injection h with h
        subst h
        obtain ⟨i1, i2⟩ := ih xs hxs
        refine ⟨by simp [i1], ?_⟩
        intro e he
        rcases List.mem_cons.mp he with rfl | he
        · exact encode33_length hx
        · exact i2 e he

theorem calcCat_writable {m : DImg} (hm : m.maxSectors = 560) {ds : List DDirent} (hne : ds ≠ []) {cat : List WSector}
    (h : m.calcCatSectors ds = .ok cat) : Writable33 cat := by
  unfold DImg.calcCatSectors at h
  split at h
  · cases h
  · rename_i encs henc
    obtain ⟨h1, h2⟩ := encodeAll33_length ds encs henc
    rw [hm] at h
    refine numberCat_writable _ _ _ ?_ h
    have hnee : encs ≠ [] := by
      intro h; rw [h] at h1; exact hne (List.length_eq_zero_iff.mp h1.symm)
    have hws := calcSectors33 hnee h2
    intro w hw
    have : w.data ∈ (calcSectors freshCatSec encs).map (·.data) := List.mem_map_of_mem hw
    rw [hws] at this
    obtain ⟨g, hg, hgd⟩ := List.mem_map.mp this
    rw [← hgd]
    refine length_catData ?_ (mem_chunks_length 7 (by omega) encs g hg).2
    intro x hx
    refine h2 x ?_
    rw [← chunks_flatten 7 (by omega) encs]
    exact List.mem_flatten.mpr ⟨g, hg, hx⟩

/-- What `write_file` does on a consistent volume, whatever its arguments: the two places where it can run out of sectors,
empty data, and the rest, where the outcome is decided by the catalog. -/
inductive WriteCase (b : Bytes) (ds : List DDirent) (name : Bytes) (ftype : Nat) (data : Bytes) : Prop where
  | noData (h : (freePool33 b).length < dataSecs33 data.length)
      (r : DImg.writeBody name ftype data (mount33 b ds) = (.error .notEnoughSpace, mount33 b ds))
  | noList (b1 : Bytes) (h : dataSecs33 data.length ≤ (freePool33 b).length)
      (h' : (freePool33 b).length < dataSecs33 data.length + listSecs33 data.length)
      (v : VtocLess b b1 (dataSecs33 data.length))
      (r : DImg.writeBody name ftype data (mount33 b ds) = (.error .notEnoughSpace, { mount33 b ds with bytes := b1 }))
  | empty (h : data = []) (r : DImg.writeBody name ftype data (mount33 b ds) = (.error .indexError, mount33 b ds))
  | catalog (b1 : Bytes) (first : Nat) (e : Err) (hf : first < 560) (hne : data ≠ [])
      (h : dataSecs33 data.length + listSecs33 data.length ≤ (freePool33 b).length)
      (v : VtocLess b b1 (dataSecs33 data.length + listSecs33 data.length))
      (hc : DImg.calcCatSectors { mount33 b ds with bytes := b1 } (setDirent33 ds (getFreeDirent33 ds)
        (rawEntry33 name ftype (dataSecs33 data.length + listSecs33 data.length) first)) = .error e)
      (r : DImg.writeBody name ftype data (mount33 b ds) = (.error e, { mount33 b ds with bytes := b1 }))
  | ok (b' : Bytes) (h : dataSecs33 data.length + listSecs33 data.length ≤ (freePool33 b).length) (hne : data ≠ [])
      (hc : ∃ b1 first cat, first < 560 ∧ VtocLess b b1 (dataSecs33 data.length + listSecs33 data.length) ∧
        DImg.calcCatSectors { mount33 b ds with bytes := b1 } (setDirent33 ds (getFreeDirent33 ds)
        (rawEntry33 name ftype (dataSecs33 data.length + listSecs33 data.length) first)) = .ok cat)
      (r : DImg.writeBody name ftype data (mount33 b ds) = (.ok (), { mount33 b ds with bytes := b' }))

theorem getVtocMap33 (b : Bytes) (ds : List DDirent) : (mount33 b ds).getVtocMap = .ok (vtocMap33 (sec33 b 272)) := by
  unfold DImg.getVtocMap getSec33
  rw [if_pos (by show 272 < 560; omega)]
  rfl

theorem splice_self33 {b : Bytes} (hb : b.length = 143360) : splice b (256 * 272) (sec33 b 272) = b :=
  splice_slice_self b _ _ (by omega) (by rw [hb]; omega)

theorem reserve_zero (m : List Bool) : reserve 0 m = .ok ([], m) := rfl

theorem writeCase {b cs ds} (c : Consistent33 b cs ds) (name : Bytes) (ftype : Nat) (data : Bytes) :
    WriteCase b ds name ftype data := by
  have hb := c.size
  have hv := length_sec33 hb (by omega : 272 < 560)
  have hf := freePool33_eq hb
  have hsl0 : (buildSectors33 data).length = dataSecs33 data.length := by
    unfold buildSectors33 dataSecs33
    rw [List.length_map, length_chunks 256 (by omega)]; omega
  by_cases h1 : (freePool33 b).length < dataSecs33 data.length
  · refine .noData h1 ?_
    unfold DImg.writeBody
    rw [getDirectory33 c]
    simp only
    rw [getVtocMap33]
    simp only
    rw [hsl0, reserve_fails _ _ (by rw [hf]; exact h1)]
  obtain ⟨order, map1, hr1⟩ := reserve_total (dataSecs33 data.length) (vtocMap33 (sec33 b 272)) (by rw [hf]; omega)
  obtain ⟨r1, r2, r3, r4, r5, r6⟩ := reserve_ok hr1
  rw [hf] at r1 r2
  obtain ⟨l1, l2⟩ := linkSectors_plain (buildSectors33 data) order 0 (by rw [hsl0, r4])
  generalize hsl : linkSectors WSector.setNextPlain 0 (buildSectors33 data) order = sl at l1 l2
  have hsll : sl.length = dataSecs33 data.length := by have := congrArg List.length l1; rw [List.length_map] at this; rw [this, r4]
  obtain ⟨tl0, t1, t2⟩ := tsSectors_ok (chunks 122 order) (fun x hx => (mem_chunks_length 122 (by omega) order x hx).2)
  have htl0 : tl0.length = listSecs33 data.length := by
    have := congrArg List.length t2
    rw [List.length_map, List.length_map, length_chunks 122 (by omega), r4] at this
    unfold listSecs33
    omega
  obtain ⟨w1, b1, b2, b3⟩ := calcBitmap33 (m := mount33 b ds) hb map1
  generalize hbA : splice b (256 * 272) (vtocStore33 (sec33 b 272) map1) = bA
  have hvA := length_vtocStore33 hv map1
  have hlA : bA.length = 143360 := by rw [← hbA, length_splice _ _ _ (by rw [hvA, hb]; omega), hb]
  have hsA : sec33 bA 272 = vtocStore33 (sec33 b 272) map1 := by rw [← hbA]; exact sec33_splice_same hb (by omega) hvA
  have hoA : ∀ s, s ≠ 272 → sec33 bA s = sec33 b s := by
    intro s hs; rw [← hbA]; exact sec33_splice_other hb (by omega) hvA hs
  have hbt : buildTsList (mount33 b ds).tsPairs (sl.map (·.num)) = .ok tl0 := by
    show buildTsList 122 _ = _
    unfold buildTsList
    rw [if_neg (by omega), l1, t1]
  have e1 : splice (mount33 b ds).bytes (256 * 272) (vtocStore33 (sec33 (mount33 b ds).bytes 272) map1) = bA := hbA
  by_cases h2 : (freePool33 b).length < dataSecs33 data.length + listSecs33 data.length
  · refine .noList bA (by omega) h2 (vtocLess_store hb (by intro i; rw [r6, r1]) hlA hsA hoA) ?_
    unfold DImg.writeBody
    rw [getDirectory33 c]
    simp only
    rw [getVtocMap33]
    simp only
    rw [hsl0, hr1]
    simp only
    rw [b1]
    simp only [hsl, e1, hbt, htl0]
    rw [reserve_fails _ _ (by rw [r2, List.length_drop]; omega)]
  obtain ⟨tsOrder, map2, hr2⟩ := reserve_total (listSecs33 data.length) map1 (by rw [r2, List.length_drop]; omega)
  obtain ⟨s1, s2, s3, s4, s5, s6⟩ := reserve_ok hr2
  rw [r2] at s1
  have hall : order ++ tsOrder = (freePool33 b).take (dataSecs33 data.length + listSecs33 data.length) := by
    rw [r1, s1, List.take_add]
  obtain ⟨w2, d1, d2, d3⟩ := calcBitmap33 (m := { mount33 b ds with bytes := bA }) hlA map2
  have hst : vtocStore33 (sec33 bA 272) map2 = vtocStore33 (sec33 b 272) map2 := by rw [hsA, vtocStore33_twice hv]
  simp only [hst] at d1 d3
  generalize hbB : splice bA (256 * 272) (vtocStore33 (sec33 b 272) map2) = bB at d1
  have hvB := length_vtocStore33 hv map2
  have hlB : bB.length = 143360 := by rw [← hbB, length_splice _ _ _ (by rw [hvB, hlA]; omega), hlA]
  have hsB : sec33 bB 272 = vtocStore33 (sec33 b 272) map2 := by rw [← hbB]; exact sec33_splice_same hlA (by omega) hvB
  have hoB : ∀ s, s ≠ 272 → sec33 bB s = sec33 b s := by
    intro s hs; rw [← hbB, sec33_splice_other hlA (by omega) hvB hs, hoA s hs]
  have hbits : ∀ i : Nat, map2[i]? = if i ∈ (freePool33 b).take (dataSecs33 data.length + listSecs33 data.length) then some false
      else (vtocMap33 (sec33 b 272))[i]? := by
    intro i
    rw [s6, r6, ← hall]
    simp only [List.mem_append]
    by_cases h1 : i ∈ tsOrder <;> by_cases h2 : i ∈ order <;> simp [h1, h2]
  have hvl : VtocLess b bB (dataSecs33 data.length + listSecs33 data.length) := vtocLess_store hb hbits hlB hsB hoB
  obtain ⟨k1, k2⟩ := linkSectors_33 tl0 tsOrder 0 (by rw [htl0, s4])
  generalize htl : linkSectors WSector.setNext33 0 tl0 tsOrder = tl at k1 k2
  have htll : tl.length = listSecs33 data.length := by have := congrArg List.length k1; rw [List.length_map] at this; rw [this, s4]
  -- up to the catalog
  by_cases hne : data = []
  · refine .empty hne ?_
    have hk0 : dataSecs33 data.length = 0 := by rw [hne]; rfl
    have hl0 : listSecs33 data.length = 0 := by rw [hne]; rfl
    have hm1 : map1 = vtocMap33 (sec33 b 272) := by rw [hk0, reserve_zero] at hr1; generalize vtocMap33 (sec33 b 272) = mm at hr1; cases hr1; rfl
    have hm2 : map2 = vtocMap33 (sec33 b 272) := by rw [hl0, reserve_zero, hm1] at hr2; generalize vtocMap33 (sec33 b 272) = mm at hr2; cases hr2; rfl
    have hA' : bA = b := by rw [← hbA, hm1, vtocStore33_self hv, splice_self33 hb]
    have hB' : bB = b := by rw [← hbB, hm2, vtocStore33_self hv, hA', splice_self33 hb]
    unfold DImg.writeBody
    rw [getDirectory33 c]
    simp only
    rw [getVtocMap33]
    simp only
    rw [hsl0, hr1]
    simp only
    rw [b1]
    simp only [hsl, e1, hbt, htl0, hr2, d1, htl]
    have : tl = [] := List.length_eq_zero_iff.mp (by rw [htll, hl0])
    rw [this]
    simp only [hB']
    rfl
  have hpos : 0 < data.length := List.length_pos_iff.mpr hne
  have hk0 : 0 < dataSecs33 data.length := by unfold dataSecs33; omega
  have ht1 : 0 < listSecs33 data.length := by unfold listSecs33; omega
  have uall : ∀ s ∈ order ++ tsOrder, UserSec33 cs s := by
    intro s hs
    rw [hall] at hs
    exact c.free s (mem_freePool33.mp (List.mem_of_mem_take hs))
  have hsldata : ∀ w ∈ sl, w.data.length = 256 := by
    intro w hw
    have : w.data ∈ sl.map (·.data) := List.mem_map_of_mem hw
    rw [l2] at this
    obtain ⟨s, hs, hsd⟩ := List.mem_map.mp this
    obtain ⟨p, hp, rfl⟩ := List.mem_map.mp hs
    have hpl := (mem_chunks_length 256 (by omega) data p hp).2
    rw [← hsd, (ofData_data 256 p hpl).1, List.length_append, List.length_replicate]
    omega
  have htldata : ∀ w ∈ tl, w.data.length = 256 := by
    intro w hw
    obtain ⟨j, hj⟩ := List.getElem?_of_mem hw
    have hjl : j < tl0.length := by rw [htl0, ← htll]; exact (List.getElem?_eq_some_iff.mp hj).1
    have hd := k2 j tl0[j] w (List.getElem?_eq_getElem hjl) hj
    have hg : ((chunks 122 order).map tsData)[j]? = some tl0[j].data := by
      rw [← t2, List.getElem?_map, List.getElem?_eq_getElem hjl]; rfl
    rw [List.getElem?_map] at hg
    obtain ⟨g, hg1, hg2⟩ := Option.map_eq_some_iff.mp hg
    have hl := length_tsData ((mem_chunks_length 122 (by omega) order g (List.mem_of_getElem? hg1)).2)
    rw [hd, ← hg2, length_splice _ _ _ (by rw [hl]; simp [tsBytes]), hl]
  have hnums : (sl ++ tl).map (·.num) = order ++ tsOrder := by rw [List.map_append, l1, k1]
  have hwr : Writable33 (sl ++ tl) := by
    intro w hw
    refine ⟨?_, ?_⟩
    · have : w.num ∈ (sl ++ tl).map (·.num) := List.mem_map_of_mem hw
      rw [hnums] at this
      exact (uall _ this).2.1
    · rcases List.mem_append.mp hw with hw | hw
      · exact hsldata w hw
      · exact htldata w hw
  have hwv : Writable33 [w1, w2] := by
    intro w hw
    rcases List.mem_cons.mp hw with rfl | hw
    · exact ⟨by rw [b2]; omega, by rw [b3]; exact hvA⟩
    · rw [List.mem_singleton] at hw; subst hw
      exact ⟨by rw [d2]; omega, by rw [d3]; exact hvB⟩
  have hfirst : tsOrder.headD 0 < 560 := by
    cases htt : tsOrder with
    | nil => simp
    | cons a l => exact (uall a (by rw [htt]; simp)).2.1
  have hsd : setDirent33 ds (getFreeDirent33 ds) (rawEntry33 name ftype (dataSecs33 data.length + listSecs33 data.length) (tsOrder.headD 0)) ≠ [] := by
    intro h; have := congrArg List.length h
    rw [length_setDirent33 (getFreeDirent33_spec ds).1] at this; simp at this
  have hbody : DImg.writeBody name ftype data (mount33 b ds) =
      match DImg.calcCatSectors { mount33 b ds with bytes := bB } (setDirent33 ds (getFreeDirent33 ds)
        (rawEntry33 name ftype (dataSecs33 data.length + listSecs33 data.length) (tsOrder.headD 0))) with
      | .error e => (.error e, { mount33 b ds with bytes := bB })
      | .ok cat =>
        match DImg.writeSectors (sl ++ tl) { mount33 b ds with bytes := bB } with
        | (.error e, m) => (.error e, m)
        | (.ok _, m) =>
          match DImg.writeSectors [w1, w2] m with
          | (.error e, m) => (.error e, m)
          | (.ok _, m) => DImg.writeSectors cat m := by
    unfold DImg.writeBody
    rw [getDirectory33 c]
    simp only
    rw [getVtocMap33]
    simp only
    rw [hsl0, hr1]
    simp only
    rw [b1]
    simp only [hsl, e1, hbt, htl0, hr2, d1, htl]
    cases htlc : tl with
    | nil => rw [htlc] at htll; simp at htll; omega
    | cons t0 ts =>
      simp only
      have ht0n : t0.num = tsOrder.headD 0 := by rw [← k1, htlc]; rfl
      have hnd : ({ DDirent.setValues name ftype with
          track := UInt8.ofNat (t0.num / 16), sector := UInt8.ofNat (t0.num % 16),
          numSectors := (sl ++ t0 :: ts).length } : DDirent) =
          rawEntry33 name ftype (dataSecs33 data.length + listSecs33 data.length) (tsOrder.headD 0) := by
        rw [← htlc, List.length_append, hsll, htll, ht0n]
        rfl
      rw [hnd]
      rfl
  cases hcc : DImg.calcCatSectors { mount33 b ds with bytes := bB } (setDirent33 ds (getFreeDirent33 ds)
        (rawEntry33 name ftype (dataSecs33 data.length + listSecs33 data.length) (tsOrder.headD 0))) with
  | error e =>
    refine .catalog bB (tsOrder.headD 0) e hfirst hne (by omega) hvl hcc ?_
    rw [hbody, hcc]
  | ok cat =>
    have hwc := calcCat_writable rfl hsd hcc
    have hlC := length_writeAll33 _ _ hlB hwr
    have hlD := length_writeAll33 _ _ hlC hwv
    refine .ok (writeAll33 (writeAll33 (writeAll33 bB (sl ++ tl)) [w1, w2]) cat) (by omega) hne ⟨bB, _, cat, hfirst, hvl, hcc⟩ ?_
    rw [hbody, hcc]
    simp only
    rw [writeSectors33_eq (sl ++ tl) _ hlB rfl hwr]
    simp only
    rw [writeSectors33_eq [w1, w2] _ hlC rfl hwv]
    simp only
    rw [writeSectors33_eq cat _ hlD rfl hwc]

end Atr
