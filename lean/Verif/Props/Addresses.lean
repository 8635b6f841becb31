import Verif.Model.Addresses
import Verif.Props.Segments
/-!
# C100: from an address to a byte of the file and back

A segment that starts at address `origin` shows its byte `i` at address `origin + i`.  The statements use the positions
`Nest.pos` of Spec/Segments.lean.
-/
namespace Atr

theorem pyItem_nat {α : Type} {l : List α} {i : Nat} {x : α} (h : l[i]? = some x) : pyItem l i = .ok x := by
  unfold pyItem
  rw [if_pos (by omega), Int.toNat_natCast, h]

theorem pyItem_neg {α : Type} {l : List α} {k : Nat} (h1 : 1 ≤ k) (h2 : k ≤ l.length) :
    pyItem l (-(k : Int)) = pyItem l ((l.length - k : Nat) : Int) := by
  unfold pyItem
  have e : (-(k : Int) + l.length) = ((l.length - k : Nat) : Int) := by omega
  rw [if_neg (by omega), if_pos (by omega), if_pos (by omega), e]

theorem pyItem_outside {α : Type} {l : List α} {i : Int} (h : i < -(l.length : Int) ∨ (l.length : Int) ≤ i) :
    pyItem l i = .error .indexError := by
  unfold pyItem
  rcases h with h | h
  · rw [if_neg (by omega), if_neg (by omega)]
  · rw [if_pos (by omega), List.getElem?_eq_none (by omega)]

/-- with the numbers of `SegView.rawIndex` -/
theorem SegView.rawIndexInt_nat {v : SegView} {i p : Nat} (h : v.rawIndex i = .ok p) : v.rawIndexInt i = .ok (p : Int) := by
  cases v with
  | whole n => exact congrArg (fun x : Nat => Except.ok (x : Int)) (Except.ok.inj h)
  | part n off len =>
    have e := Except.ok.inj h
    show Except.ok ((off : Int) + (i : Int)) = _
    rw [← e]; rfl
  | order n idx =>
    unfold SegView.rawIndex at h
    simp only at h
    cases hi : idx[i]? with
    | none => rw [hi] at h; cases h
    | some q =>
      rw [hi] at h
      have e := Except.ok.inj h
      subst e
      unfold SegView.rawIndexInt
      simp only [pyItem_nat hi, Except.map]
      rfl

theorem SegView.indexFromBase_nat (v : SegView) (p : Nat) : v.indexFromBase p = v.reverseIndex p := by
  unfold SegView.indexFromBase SegView.reverseIndex
  cases h : v.reverseMap[p]? with
  | none => rw [pyItem_outside (Or.inr (by have := List.getElem?_eq_none_iff.mp h; omega))]
  | some r => rw [pyItem_nat h]

theorem SegView.Wf.reverse_length {v : SegView} (h : v.Wf) : v.reverseMap.length = v.baseLen := by
  have hs : ∀ {α : Type} (l : List Nat) (w : List α) (a : List α), (setAll a l w).length = a.length := by
    intro α l w a
    unfold setAll
    generalize l.zip w = q
    induction q generalizing a with
    | nil => rfl
    | cons x q ih => rw [List.foldl_cons, ih]; exact List.length_set
  cases v with
  | whole n => simp [SegView.reverseMap, SegView.baseLen]
  | part n off len =>
    simp only [SegView.Wf] at h
    simp [SegView.reverseMap, SegView.baseLen, splice]; omega
  | order n idx => simp only [SegView.reverseMap, SegView.baseLen]; rw [hs]; simp

/-- **C100, forward.** An address inside the segment gives the position of the byte the segment shows at this address:
the base array holds at that position the byte the segment has there. -/
theorem C100_address {n : Nat} {t : Nest} {v : SegView} {ps : List Nat} (hb : t.build n = .ok v) (hp : t.pos n = some ps)
    (origin : Int) {i : Nat} (hi : i < ps.length) :
    v.isValidIndex i = true ∧ ∃ p : Nat, ps[i]? = some p ∧ p < n ∧ v.rawIndexFromAddress origin (origin + i) = .ok (p : Int) ∧
      ∀ a : Bytes, a.length = n → (v.read a)[i]? = a[p]? := by
  rcases t.build_spec n with ⟨w, ps', h1, h2, h3, h4, h5⟩ | ⟨h1, _⟩
  · rw [hb] at h1; cases h1
    rw [hp] at h2; cases h2
    have hl : i < v.len := by rw [← v.length_positions, h3]; exact hi
    obtain ⟨p, k1, k2⟩ := SegView.rawIndex_eq hl
    refine ⟨?_, p, by rw [← h3]; exact k1, ?_, ?_, fun a ha => ?_⟩
    · unfold SegView.isValidIndex
      simp only [Bool.and_eq_true, decide_eq_true_eq]
      omega
    · rw [← h5]; exact h4.pos_lt p (List.mem_of_getElem? k1)
    · unfold SegView.rawIndexFromAddress
      rw [show origin + (i : Int) - origin = i by omega]
      exact SegView.rawIndexInt_nat k2
    · rw [SegView.read_get h4 (by rw [ha, h5]), k1]; rfl
  · rw [hb] at h1; cases h1

/-- **C100, backward.** A position of the base array gives the index of the last byte of the segment that shows it, and
`IndexError` if the segment shows it nowhere; with distinct positions the way there and back ends where it began. -/
theorem C100_back {n : Nat} {t : Nest} {v : SegView} {ps : List Nat} (hb : t.build n = .ok v) (hp : t.pos n = some ps) :
    (∀ p : Nat, p ∉ ps → v.indexFromBase p = .error .indexError) ∧
    (∀ (p i : Nat), v.indexFromBase p = .ok i ↔ ps[i]? = some p ∧ ∀ j : Nat, i < j → ps[j]? ≠ some p) ∧
    (t.Distinct → ∀ (origin : Int) (i : Nat), i < ps.length →
      ∃ p, v.rawIndexFromAddress origin (origin + i) = .ok p ∧ v.indexFromBase p = .ok i) := by
  refine ⟨fun p => ?_, fun p i => ?_, fun hd origin i hi => ?_⟩
  · rw [SegView.indexFromBase_nat]; exact (C23_reverse hb hp p).1
  · rw [SegView.indexFromBase_nat]; exact (C23_reverse hb hp p).2 i
  · obtain ⟨hv, p, k1, _, k2, _⟩ := C100_address hb hp origin hi
    refine ⟨p, k2, ?_⟩
    rw [SegView.indexFromBase_nat, (C23_reverse hb hp p).2 i]
    refine ⟨k1, fun j hj hc => ?_⟩
    obtain ⟨a1, a2⟩ := List.getElem?_eq_some_iff.mp k1
    obtain ⟨b1, b2⟩ := List.getElem?_eq_some_iff.mp hc
    have := (List.pairwise_iff_getElem.mp (C23_nodup hp hd)) i j a1 b1 hj
    exact this (a2.trans b2.symm)

/-- **C100, refuted: addresses outside.** An address outside the segment is refused only by a reordered segment, and only
if it lies further from the start than the segment is long: closer below the start it gives the byte that lies as far
from the end.  Any other segment answers with a position for every address, below the start even with a negative one. -/
theorem C100_refuted_outside (origin : Int) :
    (∀ (n : Nat) (idx : List Nat) (k : Nat), 1 ≤ k → k ≤ idx.length →
      ∃ p : Nat, p ∈ idx ∧ (SegView.order n idx).rawIndexFromAddress origin (origin - k) = .ok (p : Int) ∧
        (SegView.order n idx).rawIndexFromAddress origin (origin + idx.length - k) = .ok (p : Int)) ∧
    (∀ (n : Nat) (idx : List Nat) (addr : Int), addr < origin - idx.length ∨ origin + idx.length ≤ addr →
      (SegView.order n idx).rawIndexFromAddress origin addr = .error .indexError) ∧
    (∀ (n off len : Nat) (addr : Int), (SegView.part n off len).rawIndexFromAddress origin addr = .ok (off + (addr - origin))) ∧
    (∀ (n : Nat) (addr : Int), (SegView.whole n).rawIndexFromAddress origin addr = .ok (addr - origin)) := by
  refine ⟨fun n idx k h1 h2 => ?_, fun n idx addr h => ?_, fun _ _ _ _ => rfl, fun _ _ => rfl⟩
  · have hk : idx.length - k < idx.length := by omega
    have e : idx[idx.length - k]? = some idx[idx.length - k] := List.getElem?_eq_getElem hk
    refine ⟨idx[idx.length - k], List.getElem_mem hk, ?_, ?_⟩
    · unfold SegView.rawIndexFromAddress SegView.rawIndexInt
      rw [show origin - (k : Int) - origin = -(k : Int) by omega]
      simp only
      rw [pyItem_neg h1 h2, pyItem_nat e]; rfl
    · unfold SegView.rawIndexFromAddress SegView.rawIndexInt
      rw [show origin + (idx.length : Int) - k - origin = ((idx.length - k : Nat) : Int) by omega]
      simp only
      rw [pyItem_nat e]; rfl
  · unfold SegView.rawIndexFromAddress SegView.rawIndexInt
    simp only
    rw [pyItem_outside (by omega)]; rfl

/-- **C100, refuted: negative positions.** A position before the start of the base array is taken as one counted from its
end, so that a segment "finds" it; beyond either end by more, `IndexError`. -/
theorem C100_refuted_negative {n : Nat} {t : Nest} {v : SegView} (hb : t.build n = .ok v) :
    (∀ k : Nat, 1 ≤ k → k ≤ n → v.indexFromBase (-(k : Int)) = v.indexFromBase ((n - k : Nat) : Int)) ∧
    (∀ p : Int, p < -(n : Int) ∨ (n : Int) ≤ p → v.indexFromBase p = .error .indexError) := by
  rcases t.build_spec n with ⟨w, ps', h1, h2, h3, h4, h5⟩ | ⟨h1, _⟩
  · rw [hb] at h1; cases h1
    have hl := h4.reverse_length
    rw [h5] at hl
    refine ⟨fun k a b => ?_, fun p hp => ?_⟩
    · unfold SegView.indexFromBase
      rw [pyItem_neg a (by omega), hl]
    · unfold SegView.indexFromBase
      rw [pyItem_outside (by omega)]
  · rw [hb] at h1; cases h1

/-- **C100, subsets.** The subset of a segment shows, in the order asked for, the bytes of the segment at the given
indexes; it can be made exactly if all lie inside. -/
theorem C100_subset {n : Nat} {t : Nest} {v : SegView} {ps : List Nat} (hb : t.build n = .ok v) (hp : t.pos n = some ps)
    (l : List Nat) :
    ((∃ w, v.createSubset l = .ok w) ↔ ∀ i ∈ l, i < ps.length) ∧
    (∀ w, v.createSubset l = .ok w → w.len = l.length ∧ ∀ (a : Bytes), a.length = n → ∀ (j i : Nat), l[j]? = some i →
      (w.read a)[j]? = (v.read a)[i]?) := by
  have hbuild : (Nest.reorder t l).build n = v.createSubset l := by
    unfold Nest.build; rw [hb]; rfl
  have hpos : (Nest.reorder t l).pos n = l.mapM fun i => ps[i]? := by
    show (t.pos n).bind _ = _
    rw [hp]; rfl
  have key : ∀ (l : List Nat) (qs : List Nat), l.mapM (fun i => ps[i]?) = some qs →
      qs.length = l.length ∧ ∀ j i : Nat, l[j]? = some i → qs[j]? = ps[i]? ∧ i < ps.length := by
    intro l
    induction l with
    | nil => intro qs h; cases h; exact ⟨rfl, fun j i h => by simp at h⟩
    | cons x l ih =>
      intro qs h
      rw [List.mapM_cons] at h
      cases hx : ps[x]? with
      | none => rw [hx] at h; cases h
      | some y =>
        cases hm : l.mapM (fun i => ps[i]?) with
        | none => rw [hx, hm] at h; cases h
        | some qs' =>
          rw [hx, hm] at h
          cases h
          obtain ⟨i1, i2⟩ := ih qs' hm
          refine ⟨by simp [i1], fun j i hj => ?_⟩
          cases j with
          | zero =>
            simp only [List.getElem?_cons_zero, Option.some.injEq] at hj
            subst hj
            exact ⟨by simp [hx], (List.getElem?_eq_some_iff.mp hx).1⟩
          | succ j => simpa using i2 j i (by simpa using hj)
  have key2 : ∀ (l : List Nat), (∀ i ∈ l, i < ps.length) → ∃ qs, l.mapM (fun i => ps[i]?) = some qs := by
    intro l
    induction l with
    | nil => intro _; exact ⟨[], rfl⟩
    | cons x l ih =>
      intro h
      obtain ⟨qs, hq⟩ := ih fun i hi => h i (List.mem_cons_of_mem _ hi)
      have hx := h x List.mem_cons_self
      exact ⟨ps[x] :: qs, by rw [List.mapM_cons, hq, List.getElem?_eq_getElem hx]; rfl⟩
  have hsome := C23_exists n (Nest.reorder t l)
  rw [hbuild, hpos] at hsome
  refine ⟨hsome.symm.trans ⟨fun h => ?_, fun h => ?_⟩, fun w hw => ?_⟩
  · obtain ⟨qs, hq⟩ := Option.isSome_iff_exists.mp h
    intro i hi
    obtain ⟨j, hj⟩ := List.getElem?_of_mem hi
    exact ((key l qs hq).2 j i hj).2
  · obtain ⟨qs, hq⟩ := key2 l h
    rw [hq]; rfl
  · rw [← hbuild] at hw
    have hh := hsome.mpr ⟨w, by rw [← hbuild]; exact hw⟩
    obtain ⟨qs, hq⟩ := Option.isSome_iff_exists.mp hh
    obtain ⟨q1, q2⟩ := key l qs hq
    have hpq : (Nest.reorder t l).pos n = some qs := by rw [hpos]; exact hq
    obtain ⟨ps', r1, r2, _⟩ := C23_raw_index hw
    rw [hpq] at r1; cases r1
    refine ⟨r2.trans q1, fun a ha j i hj => ?_⟩
    obtain ⟨u1, u2⟩ := q2 j i hj
    have hjl : j < qs.length := by rw [q1]; exact (List.getElem?_eq_some_iff.mp hj).1
    obtain ⟨_, p, v1, _, _, v2⟩ := C100_address hw hpq 0 hjl
    obtain ⟨_, p', w1, _, _, w2⟩ := C100_address hb hp 0 u2
    rw [v2 a ha, w2 a ha]
    rw [u1, w1] at v1
    cases v1
    rfl

/-- **C100, parallel data.** Asked of a whole array, the data parallel to a segment that is not reordered lies at the
very positions of that segment, as far as the array reaches. -/
theorem C100_parallel {n m : Nat} {t : Nest} {w : SegView} {ps : List Nat} (hb : t.build m = .ok w) (hp : t.pos m = some ps)
    (ho : ∀ k l, w ≠ .order k l) :
    ∃ r, (SegView.whole n).parallel w = .ok r ∧ r.positions = ps.filter (· < n) := by
  rcases t.build_spec m with ⟨w', ps', h1, h2, h3, h4, h5⟩ | ⟨h1, _⟩
  · rw [hb] at h1; cases h1
    rw [hp] at h2; cases h2
    have key : ∀ a b, (SegView.whole n).parallel w = .ok ((SegView.whole n).slc a b) → ps = List.range' a (b - a) → a ≤ b →
        ∃ r, (SegView.whole n).parallel w = .ok r ∧ r.positions = ps.filter (· < n) := by
      intro a b hr hps hab
      refine ⟨_, hr, ?_⟩
      rw [((SegView.whole n).slc_spec a b).1, hps]
      show slice (List.range n) a b = _
      have e : ∀ (k a : Nat), (List.range' a k).filter (· < n) = List.range' a (min (a + k) n - a) := by
        intro k
        induction k with
        | zero => intro a; rw [show min (a + 0) n - a = 0 by omega]; rfl
        | succ k ih =>
          intro a
          rw [List.range'_succ, List.filter_cons, ih]
          by_cases ha : a < n
          · rw [if_pos (by simpa using ha), show min (a + (k + 1)) n - a = (min (a + 1 + k) n - (a + 1)) + 1 by omega,
              List.range'_succ]
          · rw [if_neg (by simpa using ha), show min (a + (k + 1)) n - a = 0 by omega,
              show min (a + 1 + k) n - (a + 1) = 0 by omega]
            rfl
      rw [e, show a + (b - a) = b by omega]
      apply List.ext_getElem?
      intro i
      rw [getElem?_slice]
      by_cases hi : i < min b n - a
      · rw [if_pos (by omega), List.getElem?_range (by omega), List.getElem?_range' (by omega)]
        simp
      · rw [List.getElem?_eq_none (l := List.range' _ _) (by simp; omega)]
        split
        · rw [List.getElem?_eq_none (by simp; omega)]
        · rfl
    cases w with
    | whole k => exact key 0 k rfl (by rw [← h3]; simp [SegView.positions, List.range_eq_range']) (by omega)
    | part k off len => exact key off (off + len) rfl (by rw [← h3]; simp [SegView.positions, List.range'_eq_map_range]) (by omega)
    | order k l => exact absurd rfl (ho k l)
  · rw [hb] at h1; cases h1

/-- **C100, refuted: parallel data.** Asked of a reordered segment it is never given; asked of a part of an array that
does not start at its beginning, it lies elsewhere: shifted by the start of that part. -/
theorem C100_refuted_parallel :
    (∀ v n idx, SegView.parallel v (.order n idx) = .error .attributeError) ∧
    (∀ n off len o l : Nat, 0 < off → 0 < l → o + l ≤ len → off + len ≤ n → ∃ r,
      (SegView.part n off len).parallel (.part n o l) = .ok r ∧ r.positions = (SegView.part n o l).positions.map (off + ·) ∧
        r.positions ≠ (SegView.part n o l).positions) := by
  refine ⟨fun _ _ _ => rfl, fun n off len o l h1 h2 h3 h4 => ⟨_, rfl, ?_⟩⟩
  have e : ((SegView.part n off len).slc o (o + l)).positions = (SegView.part n o l).positions.map (off + ·) := by
    unfold SegView.slc
    simp only
    rw [if_neg (by omega)]
    simp only [SegView.positions]
    rw [show min (o + l) len - min o len = l by omega, show min o len = o by omega, List.map_add_range']
  refine ⟨e, fun hc => ?_⟩
  have hc' : ((SegView.part n off len).slc o (o + l)).positions = (SegView.part n o l).positions := hc
  rw [e] at hc'
  have := congrArg (·[0]?) hc'
  simp [SegView.positions, h2] at this
  omega

/-- Bytes 5, 3, 8 of a slice from position 2: address 0x601 is position 5 of the array, which goes back to index 1; the
address before the start is taken for the last byte. -/
example : ∃ v, (Nest.reorder (.slc .base 2 12) [5, 3, 8]).build 20 = .ok v ∧ v.rawIndexFromAddress 0x600 0x601 = .ok 5 ∧
    v.indexFromBase 5 = .ok 1 ∧ v.rawIndexFromAddress 0x600 0x5ff = .ok 10 ∧ v.rawIndexFromAddress 0x600 0x603 = .error .indexError ∧
    v.indexFromBase (-10) = .ok 2 ∧ v.indexFromBase 6 = .error .indexError ∧ v.isValidIndex 3 = false :=
  ⟨.order 20 [7, 5, 10], rfl, rfl, rfl, rfl, rfl, rfl, rfl, rfl⟩
/-- a slice at 0x600: the address 0x5f0 gives the position −14 -/
example : ∃ v, (Nest.slc .base 2 12).build 20 = .ok v ∧ v.rawIndexFromAddress 0x600 0x605 = .ok 7 ∧
    v.rawIndexFromAddress 0x600 0x5f0 = .ok (-14) ∧ v.rawIndexFromAddress 0x600 0x700 = .ok 258 := ⟨.part 20 2 10, rfl, rfl, rfl, rfl⟩
/-- a subset with a byte twice -/
example : ∃ v w, (Nest.slc .base 2 12).build 20 = .ok v ∧ v.createSubset [4, 0, 4] = .ok w ∧ w.positions = [6, 2, 6] ∧
    v.createSubset [10] = .error .indexError := ⟨.part 20 2 10, .order 20 [6, 2, 6], rfl, rfl, rfl, rfl⟩
/-- the data of an array of 8 bytes parallel to bytes 5 to 11 of another -/
example : ∃ r, (SegView.whole 8).parallel (.part 20 5 7) = .ok r ∧ r.positions = [5, 6, 7] := ⟨.part 8 5 3, rfl, rfl⟩
example : ∃ r, (SegView.part 40 16 20).parallel (.part 40 2 3) = .ok r ∧ r.positions = [18, 19, 20] := ⟨.part 40 18 3, rfl, rfl⟩

end Atr
