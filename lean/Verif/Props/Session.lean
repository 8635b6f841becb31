import Verif.Spec.Session
import Verif.Props.Segments
import Verif.Lemmas.Comments
/-!
# C98: saving a parser and restoring it
-/
namespace Atr

variable {V I : Type}

/-! ### one segment -/

theorem sortKeys_spec {α : Type} (c : List (Nat × α)) (hn : (c.map (·.1)).Nodup) :
    ((c.foldr insertKey []).map (·.1)).Nodup ∧ (∀ r, r ∈ c.foldr insertKey [] ↔ r ∈ c) ∧ ∀ x, dictGet (c.foldr insertKey []) x = dictGet c x := by
  induction c with
  | nil => exact ⟨List.nodup_nil, fun _ => Iff.rfl, fun _ => rfl⟩
  | cons q c ih =>
    rw [List.map_cons, List.nodup_cons] at hn
    obtain ⟨i1, i2, i3⟩ := ih hn.2
    have hq : q.1 ∉ (c.foldr insertKey []).map (·.1) := by
      intro h
      obtain ⟨r, hr, he⟩ := List.mem_map.mp h
      exact hn.1 (List.mem_map.mpr ⟨r, (i2 r).mp hr, he⟩)
    rw [List.foldr_cons]
    refine ⟨insertKey_keys _ _ (by rw [List.map_cons, List.nodup_cons]; exact ⟨hq, i1⟩), fun r => ?_, fun x => ?_⟩
    · rw [insertKey_mem, i2, List.mem_cons]
    · rw [insertKey_get _ _ _ hq, dictGet_cons, dictGet_cons, i3]

theorem dictSet_keys {α : Type} (d : List (Nat × α)) (k : Nat) (v : α) (hn : (d.map (·.1)).Nodup) : ((dictSet d k v).map (·.1)).Nodup := by
  unfold dictSet
  split
  · have : (d.map fun p => if p.1 == k then (k, v) else p).map (·.1) = d.map (·.1) := by
      rw [List.map_map]
      apply List.map_congr_left
      intro p _
      show (if p.1 == k then (k, v) else p).1 = p.1
      by_cases h : p.1 = k
      · simp [h]
      · simp [h]
    rw [this]; exact hn
  · rename_i h
    rw [List.map_append, List.nodup_append]
    refine ⟨hn, by simp, ?_⟩
    intro a ha b hb hab
    simp at hb
    subst hb
    obtain ⟨p, hp, he⟩ := List.mem_map.mp ha
    exact h (List.any_eq_true.mpr ⟨p, hp, by simp [he, hab]⟩)

theorem foldl_set_keys {α : Type} (l : List (Nat × α)) : ∀ (d : List (Nat × α)), (d.map (·.1)).Nodup →
    ((l.foldl (fun d p => dictSet d p.1 p.2) d).map (·.1)).Nodup := by
  induction l with
  | nil => exact fun _ h => h
  | cons q l ih => exact fun d h => ih _ (dictSet_keys d q.1 q.2 h)

/-- saving succeeds for every complete segment -/
theorem getState_complete {c : SegClass V} {s : SegObj V} {v : SegView} (h : s.Complete c v) :
    ∃ mm, s.memoryMap = some mm ∧ s.getState c = .ok
      { attrs := fun k => if k ∈ c.keys then s.attrs k else none, memoryMap := some (mm.foldr insertKey []), bounds := some v.bounds
        order := some v.getState.orderList } := by
  obtain ⟨mm, hm, _⟩ := h.map
  refine ⟨mm, hm, ?_⟩
  unfold SegObj.getState
  have : c.keys.all (fun k => (s.attrs k).isSome) = true := List.all_eq_true.mpr fun k hk => by
    obtain ⟨x, hx⟩ := h.attrs k hk
    rw [hx]; rfl
  rw [this, h.raw, hm]
  rfl

/-- **C98, incomplete segments.** A segment can be saved exactly if it has all attributes of its class, raw data and a memory map;
otherwise the attempt ends with `AttributeError`. -/
theorem C98_incomplete (c : SegClass V) (s : SegObj V) :
    ((∃ st, s.getState c = .ok st) ↔ (∀ k ∈ c.keys, ∃ x, s.attrs k = some x) ∧ (∃ v, s.raw = some v) ∧ ∃ mm, s.memoryMap = some mm) ∧
      ∀ e, s.getState c = .error e → e = .attributeError := by
  unfold SegObj.getState
  cases ha : c.keys.all (fun k => (s.attrs k).isSome) with
  | false =>
    rw [if_pos (by rfl)]
    refine ⟨⟨fun ⟨_, h⟩ => (nomatch h), fun ⟨h, _⟩ => ?_⟩, fun e h => (Except.error.inj h).symm⟩
    have : c.keys.all (fun k => (s.attrs k).isSome) = true := List.all_eq_true.mpr fun k hk => by
      obtain ⟨x, hx⟩ := h k hk
      rw [hx]; rfl
    rw [this] at ha; cases ha
  | true =>
    rw [if_neg (by decide)]
    have h1 : ∀ k ∈ c.keys, ∃ x, s.attrs k = some x := fun k hk => Option.isSome_iff_exists.mp (List.all_eq_true.mp ha k hk)
    cases hr : s.raw with
    | none => exact ⟨⟨fun ⟨_, h⟩ => (nomatch h), fun ⟨_, ⟨_, h⟩, _⟩ => (nomatch h)⟩, fun e h => (Except.error.inj h).symm⟩
    | some v =>
      cases hm : s.memoryMap with
      | none => exact ⟨⟨fun ⟨_, h⟩ => (nomatch h), fun ⟨_, _, ⟨_, h⟩⟩ => (nomatch h)⟩, fun e h => (Except.error.inj h).symm⟩
      | some mm => exact ⟨⟨fun _ => ⟨h1, ⟨v, rfl⟩, mm, rfl⟩, fun _ => ⟨_, rfl⟩⟩, fun e h => (nomatch h)⟩

/-- the attributes after `__setstate__` of a state that this version has written -/
theorem setState_attrs {c : SegClass V} (fresh : V) (hc : "start_addr" ∉ c.keys) {a : String → Option V}
    (ha : ∀ k ∈ c.keys, ∃ x, a k = some x) (st : SegSaved V) (hst : st.attrs = fun k => if k ∈ c.keys then a k else none) (k : String) :
    (st.setState c fresh).attrs k = if k ∈ c.keys then a k else none := by
  have hu : "uuid" ∈ c.keys := List.mem_append_left _ (by decide)
  have hr : "can_resize" ∈ c.keys := List.mem_append_left _ (by decide)
  obtain ⟨u, hu'⟩ := ha _ hu
  obtain ⟨r, hr'⟩ := ha _ hr
  have key : updateAttrs c fresh st.attrs = fun k => if k ∈ c.keys then a k else none := by
    funext k
    unfold updateAttrs
    rw [hst]
    by_cases h2 : k = "uuid"
    · subst h2
      simp [hu, hu']
    · by_cases h1 : k = "can_resize"
      · subst h1
        simp [hr, hr']
      · simp [h1, h2]
  show renameAttrs (updateAttrs c fresh st.attrs) k = _
  rw [key]
  unfold renameAttrs
  simp only [if_neg hc]

theorem reconstruct_eq {n : Nat} {s : SegObj V} {st : SegState} (hb : s.bounds = some (st.start, st.stop)) (ho : s.order = some st.orderList)
    {w : SegView} (h : st.reconstruct n = .ok w) : ∃ s', s.reconstruct n = (.ok (), s') ∧ s'.raw = some w ∧ s'.attrs = s.attrs ∧
      s'.memoryMap = s.memoryMap ∧ s'.bounds = none := by
  unfold SegState.reconstruct at h
  unfold SegObj.reconstruct
  rw [hb]
  simp only [ho]
  match hol : st.orderList with
  | none => rw [hol] at h; exact ⟨_, rfl, by rw [← Except.ok.inj h], rfl, rfl, rfl⟩
  | some [] => rw [hol] at h; exact ⟨_, rfl, by rw [← Except.ok.inj h], rfl, rfl, rfl⟩
  | some (p :: l) =>
    rw [hol] at h
    simp only at h ⊢
    rw [h]
    exact ⟨_, rfl, rfl, rfl, rfl, rfl⟩

/-- **C98, one segment.**  A segment that is saved and restored over the same raw data has the saved attributes again and no others, the
same memory map, and looks at the same positions.  (A reordering of nothing is the exception, `C47_empty_order`.) -/
theorem C98_segment {c : SegClass V} {s : SegObj V} {v : SegView} (fresh : V) (h : s.Complete c v) (hc : "start_addr" ∉ c.keys)
    (hne : ∀ n, v ≠ .order n []) :
    ∃ st, s.getState c = .ok st ∧ ∃ s', (st.setState c fresh).reconstruct v.baseLen = (.ok (), s') ∧ Restored c s s' ∧ s'.bounds = none := by
  obtain ⟨mm, hm, hg⟩ := getState_complete h
  refine ⟨_, hg, ?_⟩
  obtain ⟨w, w1, w2, w3, w4, _⟩ := C47_partial h.wf hne
  obtain ⟨s', r1, r2, r3, r4, r5⟩ := reconstruct_eq (V := V) (n := v.baseLen) (st := v.getState)
    (s := SegSaved.setState c fresh
      { attrs := fun k => if k ∈ c.keys then s.attrs k else none, memoryMap := some (mm.foldr insertKey []), bounds := some v.bounds
        order := some v.getState.orderList }) rfl rfl w1
  obtain ⟨mm', hm', hn⟩ := h.map
  have : mm' = mm := Option.some.inj (hm'.symm.trans hm)
  subst this
  obtain ⟨k1, _, k3⟩ := sortKeys_spec mm' hn
  refine ⟨s', r1, ⟨fun k => ?_, ⟨mm', _, hm, by rw [r4]; rfl, ?_, fun a => ?_⟩, ⟨v, w, h.raw, r2, w3, w2, w4⟩⟩, r5⟩
  · rw [r3]; exact setState_attrs fresh hc h.attrs _ rfl k
  · exact foldl_set_keys _ _ List.nodup_nil
  · rw [Option.getD_some, dictGet_foldl_set _ _ _ k1, k3]
    simp [dictGet_nil]

/-- the classes of the package do not use the old name -/
theorem C98_classes (no : V) : ∀ c ∈ [defaultClass no, objClass no, segmentedClass no, sectorsClass no], "start_addr" ∉ c.keys := by
  intro c hc
  simp only [List.mem_cons, List.not_mem_nil, or_false] at hc
  rcases hc with rfl | rfl | rfl | rfl <;> simp [SegClass.keys, baseAttributes, defaultClass, objClass, segmentedClass, sectorsClass]

/-- a restored segment can be saved again, with the same attributes in the new state -/
theorem C98_again {c : SegClass V} {s s' : SegObj V} {v : SegView} (h : s.Complete c v) (hr : Restored c s s') :
    ∃ v', s'.Complete c v' ∧ v'.positions = v.positions ∧
      ∃ st st', s.getState c = .ok st ∧ s'.getState c = .ok st' ∧ st'.attrs = st.attrs := by
  obtain ⟨v0, v', r1, r2, r3, r4, _⟩ := hr.raw
  have : v0 = v := Option.some.inj (r1.symm.trans h.raw)
  subst this
  obtain ⟨mm, mm', _, m2, m3, _⟩ := hr.map
  have hc' : s'.Complete c v' := ⟨fun k hk => by
    obtain ⟨x, hx⟩ := h.attrs k hk
    exact ⟨x, by rw [hr.attrs, if_pos hk, hx]⟩, ⟨mm', m2, m3⟩, r2, r3⟩
  obtain ⟨_, _, g⟩ := getState_complete h
  obtain ⟨_, _, g'⟩ := getState_complete hc'
  refine ⟨v', hc', r4, _, _, g, g', ?_⟩
  funext k
  show (if k ∈ c.keys then s'.attrs k else none) = if k ∈ c.keys then s.attrs k else none
  by_cases hk : k ∈ c.keys
  · rw [if_pos hk, if_pos hk, hr.attrs, if_pos hk]
  · rw [if_neg hk, if_neg hk]

/-! ### states written by other versions -/

/-- missing entries get their defaults, and the old name `start_addr` becomes `origin` whatever `origin` is in the state -/
theorem C98_old (c : SegClass V) (fresh : V) (st : SegSaved V) :
    (st.attrs "uuid" = none → (st.setState c fresh).attrs "uuid" = some fresh) ∧
    (st.attrs "can_resize" = none → (st.setState c fresh).attrs "can_resize" = some c.canResize) ∧
    (st.memoryMap = none → (st.setState c fresh).memoryMap = some []) ∧
    (∀ x, st.attrs "start_addr" = some x → (st.setState c fresh).attrs "origin" = some x) ∧
    (st.setState c fresh).attrs "start_addr" = none := by
  refine ⟨fun h => ?_, fun h => ?_, fun h => ?_, fun x h => ?_, ?_⟩
  · show renameAttrs (updateAttrs c fresh st.attrs) "uuid" = _
    unfold renameAttrs
    split
    · simp [updateAttrs, h]
    · simp [updateAttrs, putAttr, h]
  · show renameAttrs (updateAttrs c fresh st.attrs) "can_resize" = _
    unfold renameAttrs
    split
    · simp [updateAttrs, h]
    · simp [updateAttrs, putAttr, h]
  · show some ((st.memoryMap.getD []).foldl _ []) = _
    rw [h]; rfl
  · show renameAttrs (updateAttrs c fresh st.attrs) "origin" = _
    unfold renameAttrs
    simp [h, putAttr, updateAttrs]
  · show renameAttrs (updateAttrs c fresh st.attrs) "start_addr" = _
    unfold renameAttrs
    split
    · rename_i h'; exact h'
    · simp

/-! ### other raw data, and restoring twice -/

/-- reconstructing needs the bounds, and takes them away: the second time it fails, whatever happened the first time -/
theorem C98_twice (s : SegObj V) (n n' : Nat) : ((s.reconstruct n).2.reconstruct n').1 = .error .attributeError := by
  have : (s.reconstruct n).2.bounds = none := by
    unfold SegObj.reconstruct
    split
    · assumption
    · simp only
      split <;> try rfl
      split <;> rfl
  generalize (s.reconstruct n).2 = t at this ⊢
  unfold SegObj.reconstruct
  rw [this]

/-- over raw data of another length a contiguous segment silently loses what is beyond the end -/
theorem C98_other_length {c : SegClass V} {s : SegObj V} {v : SegView} (fresh : V) (h : s.Complete c v) (ho : ∀ n idx, v ≠ .order n idx) (n : Nat) :
    ∃ st, s.getState c = .ok st ∧ ∃ s' w, (st.setState c fresh).reconstruct n = (.ok (), s') ∧ s'.raw = some w ∧
      w.positions = v.positions.filter (· < n) := by
  obtain ⟨mm, _, hg⟩ := getState_complete h
  refine ⟨_, hg, ?_⟩
  have key : ∀ (off len : Nat), ((SegView.whole n).slc off (off + len)).positions = (List.range' off len).filter (· < n) := by
    intro off len
    rw [((SegView.whole n).slc_spec off (off + len)).1]
    show slice (List.range n) off (off + len) = _
    by_cases hle : off + len ≤ n
    · rw [List.filter_eq_self.mpr (by intro a ha; rw [List.mem_range'_1] at ha; simp; omega)]
      have := SegView.slc_bounds (n := n) hle
      rw [((SegView.whole n).slc_spec off (off + len)).1] at this
      exact this
    · by_cases hoff : n ≤ off
      · have h1 : slice (List.range n) off (off + len) = [] :=
          List.length_eq_zero_iff.mp (by rw [length_slice, List.length_range]; omega)
        rw [h1, List.filter_eq_nil_iff.mpr (by intro a ha; rw [List.mem_range'_1] at ha; simp; omega)]
      · have hsplit : List.range' off len = List.range' off (n - off) ++ List.range' n (off + len - n) := by
          have := List.range'_append_1 (s := off) (m := n - off) (n := off + len - n)
          rw [show off + (n - off) = n by omega] at this
          rw [this]; congr 1; omega
        rw [hsplit, List.filter_append, List.filter_eq_self.mpr (by intro a ha; rw [List.mem_range'_1] at ha; simp; omega),
          List.filter_eq_nil_iff.mpr (by intro a ha; rw [List.mem_range'_1] at ha; simp; omega), List.append_nil]
        have := SegView.slc_bounds (n := n) (off := off) (len := n - off) (by omega)
        rw [((SegView.whole n).slc_spec off (off + (n - off))).1] at this
        rw [← this]
        show slice (List.range n) off (off + len) = slice (List.range n) off (off + (n - off))
        unfold slice
        rw [List.take_of_length_le (by simp; omega), List.take_of_length_le (by simp; omega)]
  cases v with
  | order m idx => exact absurd rfl (ho m idx)
  | whole m =>
    refine ⟨_, (SegView.whole n).slc 0 m, rfl, rfl, ?_⟩
    have := key 0 m
    rw [Nat.zero_add] at this
    rw [this]
    show _ = (List.range m).filter _
    rw [List.range_eq_range']
  | part m off len => exact ⟨_, (SegView.whole n).slc off (off + len), rfl, rfl, key off len⟩

theorem reconstruct_order {n i j p : Nat} {l : List Nat} {s : SegObj V} (hb : s.bounds = some (i, j)) (ho : s.order = some (some (p :: l))) :
    (∀ w, ((SegView.whole n).slc i j).indexed (p :: l) = .ok w →
      s.reconstruct n = (.ok (), { s with bounds := none, order := none, raw := some w })) ∧
    (∀ e, ((SegView.whole n).slc i j).indexed (p :: l) = .error e → s.reconstruct n = (.error e, { s with bounds := none })) := by
  constructor
  · intro w h
    unfold SegObj.reconstruct
    rw [hb]
    simp only [ho, h]
  · intro e h
    unfold SegObj.reconstruct
    rw [hb]
    simp only [ho, h]

/-- a reordered segment comes back if all its positions exist in the new raw data; otherwise the restoring stops with `IndexError`, and the
segment is left without its bounds -/
theorem C98_other_order {c : SegClass V} {s : SegObj V} {m : Nat} {idx : List Nat} (fresh : V) (h : s.Complete c (.order m idx)) (hne : idx ≠ [])
    (n : Nat) :
    ∃ st, s.getState c = .ok st ∧
      ((∀ p ∈ idx, p < n) → ∃ s' w, (st.setState c fresh).reconstruct n = (.ok (), s') ∧ s'.raw = some w ∧ w.positions = idx) ∧
      ((∃ p ∈ idx, n ≤ p) → ∃ s', (st.setState c fresh).reconstruct n = (.error .indexError, s') ∧ s'.bounds = none ∧ s'.raw = none) := by
  obtain ⟨mm, _, hg⟩ := getState_complete h
  refine ⟨_, hg, ?_⟩
  obtain ⟨p, l, rfl⟩ : ∃ p l, idx = p :: l := by cases idx with | nil => exact absurd rfl hne | cons p l => exact ⟨p, l, rfl⟩
  have hpos : ((SegView.whole n).slc 0 m).positions = List.range (min m n) := by
    rw [((SegView.whole n).slc_spec 0 m).1]
    show slice (List.range n) 0 m = _
    rw [slice, List.drop_zero, List.take_range]
  have hlen : ((SegView.whole n).slc 0 m).len = min m n := by rw [← SegView.length_positions, hpos, List.length_range]
  constructor
  · intro hall
    have hall' : (p :: l).all (· < ((SegView.whole n).slc 0 m).len) := by
      rw [List.all_eq_true]
      intro q hq
      have h1 := hall q hq
      have h2 : q < m := h.wf q hq
      rw [hlen]
      exact decide_eq_true (by omega)
    obtain ⟨w, k1, k2, _⟩ := SegView.indexed_ok hall'
    refine ⟨_, w, (reconstruct_order rfl rfl).1 w k1, rfl, ?_⟩
    · rw [k2, hpos]
      conv => rhs; rw [← List.map_id (p :: l)]
      apply List.map_congr_left
      intro q hq
      have h1 := hall q hq
      have h2 : q < m := h.wf q hq
      rw [List.getD_eq_getElem?_getD, List.getElem?_range (by omega)]
      rfl
  · rintro ⟨q, hq, hle⟩
    have hbad : ¬ (p :: l).all (· < ((SegView.whole n).slc 0 m).len) = true := by
      intro hh
      have := of_decide_eq_true (List.all_eq_true.mp hh q hq)
      rw [hlen] at this
      omega
    have hind : ((SegView.whole n).slc 0 m).indexed (p :: l) = .error .indexError := by
      cases hv : (SegView.whole n).slc 0 m with
      | whole k => rw [hv] at hbad; exact if_neg hbad
      | part k off len => rw [hv] at hbad; exact if_neg hbad
      | order k i => rw [hv] at hbad; exact if_neg hbad
    exact ⟨_, (reconstruct_order rfl rfl).2 _ hind, rfl, rfl⟩

/-! ### a whole parser -/

theorem session_loop (b : Bytes) (fresh : Nat → V) : ∀ (l : List (SegClass V × SegObj V)) (i : Nat),
    (∀ x ∈ l, "start_addr" ∉ x.1.keys ∧ ∃ v, x.2.Complete x.1 v ∧ v.baseLen = b.length ∧ ∀ n, v ≠ .order n []) →
    ∃ sts, saveSegments l = .ok sts ∧ ∃ l', reconstructLoop b.length ((List.zipIdx sts i).map fun x => (x.1.1, x.1.2.setState x.1.1 (fresh x.2))) = (.ok (), l') ∧
      RestoredAll l l' ∧ ∀ x ∈ l', x.2.bounds = none
  | [], _, _ => ⟨[], rfl, [], rfl, .nil, fun _ h => nomatch h⟩
  | (c, s) :: l, i, h => by
    obtain ⟨hc, v, hv, hb, hne⟩ := h (c, s) List.mem_cons_self
    obtain ⟨st, g1, s', g2, g3, g4⟩ := C98_segment (fresh i) hv hc hne
    obtain ⟨sts, k1, l', k2, k3, k4⟩ := session_loop b fresh l (i + 1) fun x hx => h x (List.mem_cons_of_mem _ hx)
    refine ⟨(c, st) :: sts, ?_, (c, s') :: l', ?_, .cons g3 k3, ?_⟩
    · unfold saveSegments
      rw [show s.getState c = .ok st from g1]
      simp only
      rw [k1]
    · rw [List.zipIdx_cons, List.map_cons]
      unfold reconstructLoop
      rw [hb] at g2
      rw [g2]
      simp only
      rw [k2]
    · intro x hx
      rcases List.mem_cons.mp hx with rfl | hx
      · exact g4
      · exact k4 x hx

/-- **C98.**  A parser whose segments are complete can be saved; the saved parser, restored over the same file, opens the image again and
has the same segments in the same order, and `strict` is what it was. -/
theorem C98_parser_partial {f : Bytes → Except Err I} {b : Bytes} {im : I} (hf : f b = .ok im) (fresh : Nat → V) (p : ParserObj V I)
    (h : ∀ x ∈ p.segments, "start_addr" ∉ x.1.keys ∧ ∃ v, x.2.Complete x.1 v ∧ v.baseLen = b.length ∧ ∀ n, v ≠ .order n []) :
    ∃ st, p.getState = .ok st ∧ (restoreParser fresh st : ParserObj V I).image = none ∧
      ∃ p', (restoreParser fresh st).reconstruct (some f) b = (.ok (), p') ∧ p'.image = some im ∧ p'.data = some b ∧ p'.strict = p.strict ∧
        RestoredAll p.segments p'.segments := by
  obtain ⟨sts, k1, l', k2, k3, _⟩ := session_loop b fresh p.segments 0 h
  refine ⟨(sts, p.strict), ?_, rfl, { segments := l', strict := p.strict, image := some im, data := some b }, ?_, rfl, rfl, rfl, k3⟩
  · unfold ParserObj.getState
    rw [k1]
  · unfold ParserObj.reconstruct
    simp only [hf]
    have k2' : reconstructLoop b.length (restoreParser fresh (sts, p.strict) : ParserObj V I).segments = (.ok (), l') := k2
    rw [k2']
    rfl

/-- **The claim is false for the parser of raw data**: it has no image type, so its segments cannot be reconstructed.  Nor can those of a
file that the image class does not take any more; the parser then stays without image. -/
theorem C98_not_restored (p : ParserObj V I) (b : Bytes) :
    p.reconstruct none b = (.error .typeError, p) ∧ ∀ f : Bytes → Except Err I, ∀ e, f b = .error e → p.reconstruct (some f) b = (.error e, p) := by
  refine ⟨rfl, fun f e h => ?_⟩
  unfold ParserObj.reconstruct
  simp only [h]

/-- **A restored parser cannot be reconstructed again** (for instance over changed data): the first segment has no bounds any more -/
theorem C98_parser_twice (imageType : Option (Bytes → Except Err I)) (b b' : Bytes) (p p' : ParserObj V I)
    (h : p.reconstruct imageType b = (.ok (), p')) (hne : p.segments ≠ []) : ∃ e p'', p'.reconstruct imageType b' = (.error e, p'') := by
  unfold ParserObj.reconstruct at h
  cases imageType with
  | none => cases h
  | some f =>
    simp only at h
    cases hf : f b with
    | error e => rw [hf] at h; cases h
    | ok im =>
      rw [hf] at h
      simp only at h
      obtain ⟨⟨c, s⟩, l, hl⟩ : ∃ x l, p.segments = x :: l := by
        cases hp : p.segments with
        | nil => exact absurd hp hne
        | cons x l => exact ⟨x, l, rfl⟩
      rw [hl] at h
      unfold reconstructLoop at h
      unfold ParserObj.reconstruct
      simp only
      cases hf' : f b' with
      | error e => exact ⟨e, _, rfl⟩
      | ok im' =>
        have htw := C98_twice s b.length b'.length
        generalize hs : s.reconstruct b.length = x at h htw
        obtain ⟨r, s'⟩ := x
        cases r with
        | error e => cases h
        | ok _ =>
          simp only at h htw
          generalize hr : reconstructLoop b.length l = y at h
          obtain ⟨r, l'⟩ := y
          simp only [Prod.mk.injEq] at h
          obtain ⟨_, rfl⟩ := h
          refine ⟨.attributeError, ?_⟩
          simp only
          unfold reconstructLoop
          generalize hs' : s'.reconstruct b'.length = z at htw
          obtain ⟨r', s''⟩ := z
          simp only at htw
          subst htw
          exact ⟨_, rfl⟩

/-! ### a concrete case -/

/-- a file entry with a reordered view, with an attribute that is not saved -/
def sampleSeg : SegObj Nat where
  attrs := fun k => if k = "origin" then some 0x600 else if k ∈ (objClass 0).keys then some 1 else if k = "colour" then some 7 else none
  memoryMap := some [(9, 4), (2, 5)]
  bounds := none
  order := none
  raw := some (.order 6 [4, 2])

theorem sampleSeg_complete : sampleSeg.Complete (objClass 0) (.order 6 [4, 2]) := by
  refine ⟨fun k hk => ?_, ⟨_, rfl, by decide⟩, rfl, by simp only [SegView.Wf]; decide⟩
  show ∃ x, (if k = "origin" then some 0x600 else if k ∈ (objClass 0).keys then some 1 else if k = "colour" then some 7 else none) = some x
  rw [if_pos hk]
  split <;> exact ⟨_, rfl⟩

/-- the segment comes back with its address and positions; the colour is lost -/
example : ∃ st, sampleSeg.getState (objClass 0) = .ok st ∧ ∃ s', (st.setState (objClass 0) 99).reconstruct 6 = (.ok (), s') ∧
    s'.attrs "origin" = some 0x600 ∧ s'.attrs "uuid" = some 1 ∧ s'.attrs "colour" = none := by
  obtain ⟨st, g1, s', g2, g3, _⟩ := C98_segment (V := Nat) 99 sampleSeg_complete (C98_classes 0 _ (by simp)) (by intro n h; cases h)
  refine ⟨st, g1, s', g2, ?_, ?_, ?_⟩
  · rw [g3.attrs]; decide
  · rw [g3.attrs]; decide
  · rw [g3.attrs]; decide

/-- a strict parser with that segment comes back strict, with the image opened again -/
example : ∃ st, ({ segments := [(objClass 0, sampleSeg)], strict := true, image := some (), data := none } : ParserObj Nat Unit).getState = .ok st ∧
    ∃ p', (restoreParser (I := Unit) (fun _ => 99) st).reconstruct (some fun _ => .ok ()) [1, 2, 3, 4, 5, 6] = (.ok (), p') ∧ p'.strict = true ∧
      p'.image = some () ∧ RestoredAll [(objClass 0, sampleSeg)] p'.segments := by
  obtain ⟨st, g1, _, p', g2, g3, _, g4, g5⟩ := C98_parser_partial (V := Nat) (f := fun _ => .ok ()) (b := [1, 2, 3, 4, 5, 6]) (im := ()) rfl
    (fun _ => 99) { segments := [(objClass 0, sampleSeg)], strict := true, image := some (), data := none } (by
      intro x hx
      rcases List.mem_singleton.mp hx with rfl
      exact ⟨C98_classes 0 _ (by simp), _, sampleSeg_complete, rfl, by intro n h; cases h⟩)
  exact ⟨st, g1, p', g2, g4, g3, g5⟩

/-- over five bytes instead of six it still comes back, over four it does not -/
example : ∃ st, sampleSeg.getState (objClass 0) = .ok st ∧ (∃ s', (st.setState (objClass 0) 99).reconstruct 5 = (.ok (), s')) ∧
    ∃ s', (st.setState (objClass 0) 99).reconstruct 4 = (.error .indexError, s') := by
  obtain ⟨st, g1, g2, _⟩ := C98_other_order (V := Nat) 99 sampleSeg_complete (by simp) 5
  obtain ⟨st', g1', _, g3⟩ := C98_other_order (V := Nat) 99 sampleSeg_complete (by simp) 4
  obtain rfl : st = st' := Except.ok.inj (g1.symm.trans g1')
  obtain ⟨s', w, k, _⟩ := g2 (by decide)
  obtain ⟨s'', k', _⟩ := g3 ⟨4, by decide, by decide⟩
  exact ⟨st, g1, ⟨s', k⟩, s'', k'⟩

/-- a state of an old version -/
def oldState : SegSaved Nat where
  attrs := fun k => if k = "start_addr" then some 0x2000 else none
  memoryMap := none
  bounds := some (0, 2)
  order := none

/-- the address is kept under its new name, the segment gets a new identity -/
example : (oldState.setState (defaultClass 0) 99).attrs "origin" = some 0x2000 ∧ (oldState.setState (defaultClass 0) 99).attrs "uuid" = some 99 ∧
    (oldState.setState (defaultClass 0) 99).attrs "start_addr" = none := by decide

end Atr
