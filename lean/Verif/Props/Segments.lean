import Verif.Lemmas.Segments
/-!
# C23, C24, C47: views of a base array
-/
namespace Atr

/-- what the reverse map holds, for every view that fits its array -/
theorem SegView.reverseMap_spec {v : SegView} (h : v.Wf) (p : Nat) :
    (∀ i, v.positions[i]? = some p → (∀ j : Nat, i < j → v.positions[j]? ≠ some p) → v.reverseMap[p]? = some (Int.ofNat i)) ∧
    (p ∉ v.positions → v.reverseMap[p]? = none ∨ v.reverseMap[p]? = some (-1)) := by
  cases v with
  | whole n =>
    simp only [positions, reverseMap]
    refine ⟨fun i hi _ => ?_, fun hp => Or.inl ?_⟩
    · obtain ⟨h1, h2⟩ := List.getElem?_eq_some_iff.mp hi
      simp at h1 h2
      subst h2
      simp [h1]
    · simp at hp ⊢; exact hp
  | part n off len =>
    simp only [Wf] at h
    simp only [positions, reverseMap]
    have hs : off + ((List.range len).map Int.ofNat).length ≤ (List.replicate n (-1 : Int)).length := by simpa using h
    rw [getElem?_splice _ _ _ _ hs, List.length_map, List.length_range]
    refine ⟨fun i hi _ => ?_, fun hp => ?_⟩
    · obtain ⟨h1, h2⟩ := List.getElem?_eq_some_iff.mp hi
      rw [List.length_range'] at h1
      rw [List.getElem_range'] at h2
      have : p = off + i := by omega
      subst this
      rw [if_neg (by omega), if_pos (by omega), Nat.add_sub_cancel_left, List.getElem?_map, List.getElem?_range h1]; rfl
    · have hp' : ¬ (off ≤ p ∧ p < off + len) := by
        rw [List.mem_range'_1] at hp; exact hp
      rw [List.getElem?_replicate]
      by_cases hpo : p < off
      · rw [if_pos hpo, if_pos (by omega)]; exact Or.inr rfl
      · rw [if_neg hpo, if_neg (by omega)]
        split
        · exact Or.inr rfl
        · exact Or.inl rfl
  | order n idx =>
    simp only [Wf] at h
    simp only [positions, reverseMap]
    refine ⟨fun i hi hl => ?_, fun hp => ?_⟩
    · have hpn := h p (List.mem_of_getElem? hi)
      rw [setAll_get_last _ _ _ (by simp) hi hl (by simpa using hpn)]
      obtain ⟨h1, _⟩ := List.getElem?_eq_some_iff.mp hi
      rw [List.getElem?_map, List.getElem?_range h1]; rfl
    · rw [setAll_get_not_mem _ _ _ hp, List.getElem?_replicate]
      split
      · exact Or.inr rfl
      · exact Or.inl rfl

/-- **C23, forward.** Every segment, however nested, maps position `i` to the base position it was made from. -/
theorem C23_raw_index {n : Nat} {t : Nest} {v : SegView} (hb : t.build n = .ok v) :
    ∃ ps, t.pos n = some ps ∧ v.len = ps.length ∧ ∀ i, i < v.len → ∃ p, ps[i]? = some p ∧ v.rawIndex i = .ok p := by
  rcases t.build_spec n with ⟨w, ps, h1, h2, h3, h4, h5⟩ | ⟨h1, _⟩
  · rw [hb] at h1; injection h1 with h1; subst h1
    refine ⟨ps, h2, by rw [← h3, v.length_positions], fun i hi => ?_⟩
    obtain ⟨p, k1, k2⟩ := SegView.rawIndex_eq hi
    exact ⟨p, by rw [← h3]; exact k1, k2⟩
  · rw [hb] at h1; cases h1

/-- the object can be made exactly if no index is out of range -/
theorem C23_exists (n : Nat) (t : Nest) : (t.pos n).isSome ↔ ∃ v, t.build n = .ok v := by
  rcases t.build_spec n with ⟨w, ps, h1, h2, _⟩ | ⟨h1, h2⟩
  · rw [h2]; exact ⟨fun _ => ⟨w, h1⟩, fun _ => rfl⟩
  · rw [h2, h1]; exact ⟨fun h => (nomatch h), fun ⟨_, h⟩ => (nomatch h)⟩

/-- **C23, backward, in general.** A base position maps back to the *last* segment position that shows it, and is
reported as not mapped exactly if the segment does not show it. -/
theorem C23_reverse {n : Nat} {t : Nest} {v : SegView} {ps : List Nat} (hb : t.build n = .ok v) (hp : t.pos n = some ps) (p : Nat) :
    (p ∉ ps → v.reverseIndex p = .error .indexError) ∧
    (∀ i, v.reverseIndex p = .ok i ↔ ps[i]? = some p ∧ ∀ j : Nat, i < j → ps[j]? ≠ some p) := by
  rcases t.build_spec n with ⟨w, ps', h1, h2, h3, h4, h5⟩ | ⟨h1, _⟩
  · rw [hb] at h1; injection h1 with h1; subst h1
    rw [hp] at h2; injection h2 with h2; subst h2
    obtain ⟨k1, k2⟩ := SegView.reverseMap_spec h4 p
    rw [h3] at k1 k2
    have hno : p ∉ ps → v.reverseIndex p = .error .indexError := by
      intro hm
      unfold SegView.reverseIndex
      rcases k2 hm with k | k <;> rw [k]
      rfl
    refine ⟨hno, fun i => ⟨fun hi => ?_, fun ⟨hi, hl⟩ => ?_⟩⟩
    · by_cases hm : p ∈ ps
      · obtain ⟨j, j1, j2⟩ := exists_last hm
        have := k1 j j1 j2
        unfold SegView.reverseIndex at hi
        rw [this] at hi
        simp only [Int.ofNat_eq_natCast] at hi
        rw [if_neg (by omega)] at hi
        injection hi with hi
        have : j = i := by omega
        subst this
        exact ⟨j1, j2⟩
      · rw [hno hm] at hi; cases hi
    · have := k1 i hi hl
      unfold SegView.reverseIndex
      rw [this]
      simp only [Int.ofNat_eq_natCast]
      rw [if_neg (by omega)]
      simp
  · rw [hb] at h1; cases h1

/-- **C23.** If the segment shows no base position twice, the two maps are inverse to each other. -/
theorem C23_inverse {n : Nat} {t : Nest} {v : SegView} {ps : List Nat} (hb : t.build n = .ok v) (hp : t.pos n = some ps)
    (hd : ps.Nodup) {i : Nat} (hi : i < v.len) (p : Nat) : v.rawIndex i = .ok p ↔ v.reverseIndex p = .ok i := by
  obtain ⟨ps', q1, q2, q3⟩ := C23_raw_index hb
  rw [hp] at q1; injection q1 with q1; subst q1
  obtain ⟨q, q4, q5⟩ := q3 i hi
  rw [(C23_reverse hb hp p).2 i, q5, q4]
  constructor
  · intro h
    injection h with h
    subst h
    refine ⟨rfl, fun j hj hc => ?_⟩
    have h1 := List.getElem?_eq_some_iff.mp q4
    obtain ⟨a, b⟩ := List.getElem?_eq_some_iff.mp hc
    obtain ⟨c, d⟩ := h1
    exact List.pairwise_iff_getElem.mp hd i j c a hj (d.trans b.symm)
  · rintro ⟨h, _⟩
    injection h with h
    rw [h]

theorem nodup_slice {ps : List Nat} (h : ps.Nodup) (a b : Nat) : (slice ps a b).Nodup :=
  (h.sublist (List.take_sublist b ps)).sublist (List.drop_sublist a _)

theorem mapM_mem {ps : List Nat} : ∀ {l qs : List Nat}, l.mapM (fun i => ps[i]?) = some qs → ∀ q ∈ qs, ∃ i ∈ l, ps[i]? = some q := by
  intro l
  induction l with
  | nil => intro qs h; injection h with h; subst h; intro q hq; cases hq
  | cons i l ih =>
    intro qs h q hq
    rw [List.mapM_cons] at h
    cases hi : ps[i]? with
    | none => rw [hi] at h; cases h
    | some p =>
      rw [hi] at h
      cases hl : l.mapM (fun i => ps[i]?) with
      | none => rw [hl] at h; cases h
      | some qs' =>
        rw [hl] at h
        injection h with h
        subst h
        rcases List.mem_cons.mp hq with hq | hq
        · exact ⟨i, List.mem_cons_self, by rw [hq]; exact hi⟩
        · obtain ⟨j, j1, j2⟩ := ih hl q hq
          exact ⟨j, List.mem_cons_of_mem _ j1, j2⟩

theorem nodup_mapM {ps : List Nat} (hd : ps.Nodup) : ∀ {l qs : List Nat}, l.Nodup → l.mapM (fun i => ps[i]?) = some qs → qs.Nodup := by
  intro l
  induction l with
  | nil => intro qs _ h; injection h with h; subst h; exact List.nodup_nil
  | cons i l ih =>
    intro qs hn h
    rw [List.nodup_cons] at hn
    rw [List.mapM_cons] at h
    cases hi : ps[i]? with
    | none => rw [hi] at h; cases h
    | some p =>
      rw [hi] at h
      cases hl : l.mapM (fun i => ps[i]?) with
      | none => rw [hl] at h; cases h
      | some qs' =>
        rw [hl] at h
        injection h with h
        subst h
        refine List.nodup_cons.mpr ⟨fun hm => ?_, ih hn.2 hl⟩
        obtain ⟨j, j1, j2⟩ := mapM_mem hl p hm
        obtain ⟨a, b⟩ := List.getElem?_eq_some_iff.mp hi
        obtain ⟨c, d⟩ := List.getElem?_eq_some_iff.mp j2
        have hij : i ≠ j := fun h => hn.1 (h ▸ j1)
        rcases Nat.lt_or_gt_of_ne hij with hlt | hlt
        · exact List.pairwise_iff_getElem.mp hd i j a c hlt (b.trans d.symm)
        · exact List.pairwise_iff_getElem.mp hd j i c a hlt (d.trans b.symm)

/-- slices and reorderings without repetition show no position twice, so `C23_inverse` applies to every such nesting -/
theorem C23_nodup {n : Nat} {t : Nest} {ps : List Nat} (h : t.pos n = some ps) (hd : t.Distinct) : ps.Nodup := by
  induction t generalizing ps with
  | base => injection h with h; subst h; exact List.nodup_range
  | slc inner a b ih =>
    unfold Nest.pos at h
    cases hi : inner.pos n with
    | none => rw [hi] at h; cases h
    | some qs => rw [hi] at h; injection h with h; subst h; exact nodup_slice (ih hi hd) a b
  | reorder inner l ih =>
    unfold Nest.pos at h
    cases hi : inner.pos n with
    | none => rw [hi] at h; cases h
    | some qs => rw [hi] at h; exact nodup_mapM (ih hi hd.1) hd.2 h

/-- With a repeated index the round trip is not the identity: position 0 of `[3, 3]` comes back as 1. -/
theorem C23_repeated_index : ∃ v, (Nest.reorder .base [3, 3]).build 5 = .ok v ∧ v.rawIndex 0 = .ok 3 ∧ v.reverseIndex 3 = .ok 1 :=
  ⟨.order 5 [3, 3], rfl, rfl, rfl⟩

/-- positions 2, 6, 4 of the slice 2:9 of an array of 12 bytes, without the first -/
example : ∃ v, (Nest.slc (.reorder (.slc .base 2 9) [2, 6, 4]) 1 7).build 12 = .ok v ∧ v.rawIndex 0 = .ok 8 ∧
    v.reverseIndex 8 = .ok 0 ∧ v.reverseIndex 4 = .error .indexError := ⟨.order 12 [8, 6], rfl, rfl, rfl, rfl⟩

/-! ### C24 -/

/-- a segment that looks at an existing array and fits it -/
structure Raw.Ok (r : Raw) (h : Heap) : Prop where
  lt : r.arr < h.length
  wf : r.view.Wf
  data : (h.at r.arr).data.length = r.view.baseLen
  style : (h.at r.arr).style.length = r.view.baseLen

theorem Heap.at_set (h : Heap) (i j : Nat) (a : Arr) (hi : i < h.length) : Heap.at (h.set i a) j = if j = i then a else h.at j := by
  unfold Heap.at
  rw [List.getD_eq_getElem?_getD, List.getElem?_set, List.getD_eq_getElem?_getD]
  by_cases hij : j = i
  · subst hij; simp [hi]
  · rw [if_neg (fun h => hij h.symm), if_neg hij]

/-- **C24, writing.** Storing a byte through one segment succeeds exactly inside its length; afterwards every segment
(over the same array or another) shows the new byte at exactly the positions that look at the same base position, and
what it showed before everywhere else.  Styles are untouched. -/
theorem C24_write_data {r q : Raw} {h : Heap} (hr : r.Ok h) (hq : q.Ok h) (i : Nat) (x : UInt8) :
    (i < r.view.len ↔ ∃ h', r.writeData h i x = .ok h') ∧
    ∀ h', r.writeData h i x = .ok h' → q.Ok h' ∧ q.style h' = q.style h ∧
      ∀ j, (q.data h')[j]? = if j < q.view.len ∧ q.arr = r.arr ∧ q.view.positions[j]? = r.view.positions[i]? then some x
        else (q.data h)[j]? := by
  have hw := SegView.write_spec hr.wf hr.data i x
  by_cases hi : i < r.view.len
  · obtain ⟨p, hp, _⟩ := SegView.rawIndex_eq hi
    rw [hp] at hw
    simp only at hw
    have hwd : r.writeData h i x = .ok (h.set r.arr { h.at r.arr with data := (h.at r.arr).data.set p x }) := by
      unfold Raw.writeData; rw [hw]
    refine ⟨⟨fun _ => ⟨_, hwd⟩, fun _ => hi⟩, ?_⟩
    intro h' hh
    rw [hwd] at hh
    injection hh with hh
    subst hh
    by_cases ha : q.arr = r.arr
    · refine ⟨⟨by rw [List.length_set]; exact hq.lt, hq.wf, ?_, ?_⟩, ?_, ?_⟩
      · rw [Heap.at_set _ _ _ _ hr.lt, if_pos ha]
        show ((h.at r.arr).data.set p x).length = _
        rw [List.length_set, ← ha]; exact hq.data
      · rw [Heap.at_set _ _ _ _ hr.lt, if_pos ha]
        show (h.at r.arr).style.length = _
        rw [← ha]; exact hq.style
      · unfold Raw.style
        rw [Heap.at_set _ _ _ _ hr.lt, if_pos ha, ha]
      · intro j
        unfold Raw.data
        rw [Heap.at_set _ _ _ _ hr.lt, if_pos ha]
        simp only
        rw [SegView.read_get hq.wf (by rw [List.length_set, ← ha]; exact hq.data), SegView.read_get hq.wf hq.data, hp, ha]
        have hpn : p < (h.at r.arr).data.length := by
          rw [hr.data]; exact hr.wf.pos_lt p (List.mem_of_getElem? hp)
        cases hj : q.view.positions[j]? with
        | none =>
          rw [if_neg (by rintro ⟨_, _, h⟩; cases h)]; rfl
        | some s =>
          have hjl : j < q.view.len := by
            rw [← SegView.length_positions]; exact (List.getElem?_eq_some_iff.mp hj).1
          simp only [Option.bind_some, Option.some.injEq, hjl, true_and]
          rw [List.getElem?_set]
          by_cases hs : p = s
          · subst hs; simp [hpn]
          · rw [if_neg hs, if_neg (fun h => hs h.symm)]
    · have hat : Heap.at (h.set r.arr { h.at r.arr with data := (h.at r.arr).data.set p x }) q.arr = h.at q.arr := by
        rw [Heap.at_set _ _ _ _ hr.lt, if_neg ha]
      refine ⟨⟨by rw [List.length_set]; exact hq.lt, hq.wf, by rw [hat]; exact hq.data, by rw [hat]; exact hq.style⟩, ?_, ?_⟩
      · unfold Raw.style; rw [hat]
      · intro j
        unfold Raw.data
        rw [hat, if_neg (by rintro ⟨_, h, _⟩; exact ha h)]
  · rw [List.getElem?_eq_none (by rw [SegView.length_positions]; omega)] at hw
    have hwd : r.writeData h i x = .error .indexError := by
      unfold Raw.writeData; rw [hw]
    refine ⟨⟨fun h => absurd h hi, fun ⟨h', hh⟩ => ?_⟩, fun h' hh => ?_⟩ <;> rw [hwd] at hh <;> cases hh

/-- … and the same for styles, with the data untouched. -/
theorem C24_write_style {r q : Raw} {h : Heap} (hr : r.Ok h) (hq : q.Ok h) (i : Nat) (x : UInt8) :
    (i < r.view.len ↔ ∃ h', r.writeStyle h i x = .ok h') ∧
    ∀ h', r.writeStyle h i x = .ok h' → q.Ok h' ∧ q.data h' = q.data h ∧
      ∀ j, (q.style h')[j]? = if j < q.view.len ∧ q.arr = r.arr ∧ q.view.positions[j]? = r.view.positions[i]? then some x
        else (q.style h)[j]? := by
  have hw := SegView.write_spec hr.wf hr.style i x
  by_cases hi : i < r.view.len
  · obtain ⟨p, hp, _⟩ := SegView.rawIndex_eq hi
    rw [hp] at hw
    simp only at hw
    have hwd : r.writeStyle h i x = .ok (h.set r.arr { h.at r.arr with style := (h.at r.arr).style.set p x }) := by
      unfold Raw.writeStyle; rw [hw]
    refine ⟨⟨fun _ => ⟨_, hwd⟩, fun _ => hi⟩, ?_⟩
    intro h' hh
    rw [hwd] at hh
    injection hh with hh
    subst hh
    by_cases ha : q.arr = r.arr
    · refine ⟨⟨by rw [List.length_set]; exact hq.lt, hq.wf, ?_, ?_⟩, ?_, ?_⟩
      · rw [Heap.at_set _ _ _ _ hr.lt, if_pos ha]
        show (h.at r.arr).data.length = _
        rw [← ha]; exact hq.data
      · rw [Heap.at_set _ _ _ _ hr.lt, if_pos ha]
        show ((h.at r.arr).style.set p x).length = _
        rw [List.length_set, ← ha]; exact hq.style
      · unfold Raw.data
        rw [Heap.at_set _ _ _ _ hr.lt, if_pos ha, ha]
      · intro j
        unfold Raw.style
        rw [Heap.at_set _ _ _ _ hr.lt, if_pos ha]
        simp only
        rw [SegView.read_get hq.wf (by rw [List.length_set, ← ha]; exact hq.style), SegView.read_get hq.wf hq.style, hp, ha]
        have hpn : p < (h.at r.arr).style.length := by
          rw [hr.style]; exact hr.wf.pos_lt p (List.mem_of_getElem? hp)
        cases hj : q.view.positions[j]? with
        | none =>
          rw [if_neg (by rintro ⟨_, _, h⟩; cases h)]; rfl
        | some s =>
          have hjl : j < q.view.len := by
            rw [← SegView.length_positions]; exact (List.getElem?_eq_some_iff.mp hj).1
          simp only [Option.bind_some, Option.some.injEq, hjl, true_and]
          rw [List.getElem?_set]
          by_cases hs : p = s
          · subst hs; simp [hpn]
          · rw [if_neg hs, if_neg (fun h => hs h.symm)]
    · have hat : Heap.at (h.set r.arr { h.at r.arr with style := (h.at r.arr).style.set p x }) q.arr = h.at q.arr := by
        rw [Heap.at_set _ _ _ _ hr.lt, if_neg ha]
      refine ⟨⟨by rw [List.length_set]; exact hq.lt, hq.wf, by rw [hat]; exact hq.data, by rw [hat]; exact hq.style⟩, ?_, ?_⟩
      · unfold Raw.data; rw [hat]
      · intro j
        unfold Raw.style
        rw [hat, if_neg (by rintro ⟨_, h, _⟩; exact ha h)]
  · rw [List.getElem?_eq_none (by rw [SegView.length_positions]; omega)] at hw
    have hwd : r.writeStyle h i x = .error .indexError := by
      unfold Raw.writeStyle; rw [hw]
    refine ⟨⟨fun h => absurd h hi, fun ⟨h', hh⟩ => ?_⟩, fun h' hh => ?_⟩ <;> rw [hwd] at hh <;> cases hh

theorem SegView.slc_bounds {n off len : Nat} (h : off + len ≤ n) :
    ((SegView.whole n).slc off (off + len)).positions = List.range' off len := by
  rw [((SegView.whole n).slc_spec off (off + len)).1]
  apply List.ext_getElem?
  intro k
  rw [getElem?_slice]
  simp only [positions]
  grind

theorem Raw.copy_view {r : Raw} {h : Heap} (hr : r.Ok h) :
    (r.copy h).1.view.positions = r.view.positions ∧ (r.copy h).1.view.Wf ∧ (r.copy h).1.view.baseLen = r.view.baseLen := by
  have hw := hr.wf
  unfold Raw.copy
  cases hv : r.view with
  | whole n => exact ⟨rfl, trivial, rfl⟩
  | part n off len =>
    rw [hv] at hw
    exact ⟨SegView.slc_bounds hw, ((SegView.whole n).slc_spec _ _).2.1 trivial, ((SegView.whole n).slc_spec _ _).2.2⟩
  | order n idx => rw [hv] at hw; exact ⟨rfl, hw, rfl⟩

/-- **C24, copies.** A copy is a segment over a new array that shows the same bytes and styles; every earlier segment
stays as it is. -/
theorem C24_copy {r : Raw} {h : Heap} (hr : r.Ok h) :
    (r.copy h).1.Ok (r.copy h).2 ∧ (r.copy h).1.data (r.copy h).2 = r.data h ∧ (r.copy h).1.style (r.copy h).2 = r.style h ∧
    ∀ q : Raw, q.Ok h → q.Ok (r.copy h).2 ∧ q.arr ≠ (r.copy h).1.arr ∧ q.data (r.copy h).2 = q.data h ∧ q.style (r.copy h).2 = q.style h := by
  obtain ⟨v1, v2, v3⟩ := Raw.copy_view hr
  have hheap : (r.copy h).2 = h ++ [h.at r.arr] := rfl
  have harr : (r.copy h).1.arr = h.length := rfl
  have hat : Heap.at (r.copy h).2 (r.copy h).1.arr = h.at r.arr := by
    rw [hheap, harr]; unfold Heap.at; simp [List.getD_eq_getElem?_getD]
  have hread : ∀ a : Bytes, a.length = r.view.baseLen → (r.copy h).1.view.read a = r.view.read a := by
    intro a ha
    apply List.ext_getElem?
    intro j
    rw [SegView.read_get v2 (by rw [v3]; exact ha), SegView.read_get hr.wf ha, v1]
  refine ⟨⟨by rw [hheap, harr]; simp, v2, by rw [hat, v3]; exact hr.data, by rw [hat, v3]; exact hr.style⟩, ?_, ?_, ?_⟩
  · unfold Raw.data; rw [hat]; exact hread _ hr.data
  · unfold Raw.style; rw [hat]; exact hread _ hr.style
  · intro q hq
    have hqat : Heap.at (r.copy h).2 q.arr = h.at q.arr := by
      rw [hheap]; unfold Heap.at
      rw [List.getD_eq_getElem?_getD, List.getElem?_append_left hq.lt, List.getD_eq_getElem?_getD]
    have hql := hq.lt
    refine ⟨⟨by rw [hheap]; simp; omega, hq.wf, by rw [hqat]; exact hq.data, by rw [hqat]; exact hq.style⟩, by rw [harr]; omega, ?_, ?_⟩
    · unfold Raw.data; rw [hqat]
    · unfold Raw.style; rw [hqat]

/-- Independence: whatever is stored through the copy, the original (and every other old segment) shows the same as
before, and the other way round. -/
theorem C24_copy_independent {r q : Raw} {h h' : Heap} (hr : r.Ok h) (hq : q.Ok h) {i : Nat} {x : UInt8}
    (hw : (r.copy h).1.writeData (r.copy h).2 i x = .ok h') : q.data h' = q.data h := by
  obtain ⟨c1, _, _, c4⟩ := C24_copy hr
  obtain ⟨q1, q2, q3, _⟩ := c4 q hq
  obtain ⟨_, _, k⟩ := (C24_write_data c1 q1 i x).2 h' hw
  rw [← q3]
  apply List.ext_getElem?
  intro j
  rw [k j, if_neg (by rintro ⟨_, h, _⟩; exact q2 h)]

theorem C24_original_independent {r q : Raw} {h h' : Heap} (hr : r.Ok h) (hq : q.Ok h) {i : Nat} {x : UInt8}
    (hw : q.writeData (r.copy h).2 i x = .ok h') : (r.copy h).1.data h' = r.data h := by
  obtain ⟨c1, c2, _, c4⟩ := C24_copy hr
  obtain ⟨q1, q2, q3, _⟩ := c4 q hq
  obtain ⟨_, _, k⟩ := (C24_write_data q1 c1 i x).2 h' hw
  rw [← c2]
  apply List.ext_getElem?
  intro j
  rw [k j, if_neg (by rintro ⟨_, h, _⟩; exact q2 h.symm)]

/-- a byte stored through a reordered view is seen by an overlapping slice -/
example : ∃ h', (⟨0, .order 6 [5, 3, 1]⟩ : Raw).writeData [⟨[10, 11, 12, 13, 14, 15], [0, 0, 0, 0, 0, 0]⟩] 1 99 = .ok h' ∧
    (⟨0, .part 6 2 3⟩ : Raw).data h' = [12, 99, 14] := ⟨_, rfl, by decide⟩
example : (⟨0, .order 6 [5, 3, 1]⟩ : Raw).Ok [⟨[10, 11, 12, 13, 14, 15], [0, 0, 0, 0, 0, 0]⟩] :=
  ⟨by decide, by simp only [SegView.Wf]; decide, by decide, by decide⟩

/-! ### C47 -/

/-- **C47.** A segment restored from its saved state over the same base shows the same base positions, unless it is a
reordering of nothing. -/
theorem C47_partial {v : SegView} (hw : v.Wf) (hne : ∀ n, v ≠ .order n []) :
    ∃ w, v.getState.reconstruct v.baseLen = .ok w ∧ w.positions = v.positions ∧ w.Wf ∧ w.baseLen = v.baseLen ∧
      ∀ a : Bytes, a.length = v.baseLen → w.read a = v.read a := by
  have key : ∀ w : SegView, w.positions = v.positions → w.Wf → w.baseLen = v.baseLen → ∀ a : Bytes, a.length = v.baseLen →
      w.read a = v.read a := by
    intro w h1 h2 h3 a ha
    apply List.ext_getElem?
    intro j
    rw [SegView.read_get h2 (by rw [h3]; exact ha), SegView.read_get hw ha, h1]
  cases v with
  | whole n =>
    have hp : ((SegView.whole n).slc 0 n).positions = (SegView.whole n).positions := by
      have := SegView.slc_bounds (n := n) (off := 0) (len := n) (by omega)
      rw [Nat.zero_add] at this
      rw [this]; simp [SegView.positions, List.range_eq_range']
    obtain ⟨s1, s2, s3⟩ := (SegView.whole n).slc_spec 0 n
    exact ⟨_, rfl, hp, s2 trivial, s3, key _ hp (s2 trivial) s3⟩
  | part n off len =>
    have hp : ((SegView.whole n).slc off (off + len)).positions = (SegView.part n off len).positions := SegView.slc_bounds hw
    obtain ⟨s1, s2, s3⟩ := (SegView.whole n).slc_spec off (off + len)
    exact ⟨_, rfl, hp, s2 trivial, s3, key _ hp (s2 trivial) s3⟩
  | order n idx =>
    cases idx with
    | nil => exact absurd rfl (hne n)
    | cons p ps =>
      obtain ⟨s1, s2, s3⟩ := (SegView.whole n).slc_spec 0 n
      have hp0 : ((SegView.whole n).slc 0 n).positions = List.range n := by
        have := SegView.slc_bounds (n := n) (off := 0) (len := n) (by omega)
        rw [Nat.zero_add] at this
        rw [this]; simp [List.range_eq_range']
      have hlen : ((SegView.whole n).slc 0 n).len = n := by rw [← SegView.length_positions, hp0, List.length_range]
      have hall : (p :: ps).all (· < ((SegView.whole n).slc 0 n).len) := by
        rw [List.all_eq_true]
        intro q hq
        rw [hlen]
        exact decide_eq_true (hw q hq)
      obtain ⟨w, k1, k2, k3, k4, _⟩ := SegView.indexed_ok hall
      have hpos : w.positions = (SegView.order n (p :: ps)).positions := by
        rw [k2, hp0]
        show _ = p :: ps
        conv => rhs; rw [← List.map_id (p :: ps)]
        apply List.map_congr_left
        intro q hq
        rw [List.getD_eq_getElem?_getD, List.getElem?_range (hw q hq)]; rfl
      exact ⟨w, k1, hpos, k3 (s2 trivial), k4.trans s3, key _ hpos (k3 (s2 trivial)) (k4.trans s3)⟩

/-- **C47 is false for the empty reordering**: it comes back as the whole base array. -/
theorem C47_empty_order (n : Nat) (hn : 0 < n) : ∃ w, (SegView.order n []).getState.reconstruct n = .ok w ∧
    w.positions = List.range n ∧ w.positions ≠ (SegView.order n []).positions := by
  have hp : ((SegView.whole n).slc 0 n).positions = List.range n := by
    have := SegView.slc_bounds (n := n) (off := 0) (len := n) (by omega)
    rw [Nat.zero_add] at this
    rw [this]; simp [List.range_eq_range']
  refine ⟨_, rfl, hp, ?_⟩
  intro hc
  have := congrArg List.length (hp.symm.trans hc)
  simp [SegView.positions] at this
  omega

example : ∃ w, (SegView.order 9 [4, 2, 8]).getState.reconstruct 9 = .ok w ∧ w.positions = [4, 2, 8] := ⟨_, rfl, by decide⟩

end Atr
