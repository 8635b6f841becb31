import Verif.Lemmas.Basic
import Verif.Spec.Segments
/-! # Lemmas about views -/
namespace Atr

theorem length_setAll {α} (a : List α) (ps : List Nat) (vals : List α) : (setAll a ps vals).length = a.length := by
  unfold setAll
  generalize ps.zip vals = l
  induction l generalizing a with
  | nil => rfl
  | cons p l ih => rw [List.foldl_cons, ih, List.length_set]

theorem setAll_nil {α} (a : List α) (vals : List α) : setAll a [] vals = a := rfl
theorem setAll_cons {α} (a : List α) (p : Nat) (ps : List Nat) (x : α) (vals : List α) :
    setAll a (p :: ps) (x :: vals) = setAll (a.set p x) ps vals := rfl

/-- positions that are not in the index list keep their value -/
theorem setAll_get_not_mem {α} (ps : List Nat) : ∀ (a : List α) (vals : List α) {q : Nat}, q ∉ ps →
    (setAll a ps vals)[q]? = a[q]? := by
  induction ps with
  | nil => intro a vals q _; rfl
  | cons p ps ih =>
    intro a vals q hq
    cases vals with
    | nil => rfl
    | cons x vals =>
      rw [setAll_cons, ih _ _ (fun h => hq (List.mem_cons_of_mem _ h)), List.getElem?_set]
      rw [if_neg (by rintro rfl; exact hq (List.mem_cons_self))]

/-- the value comes from the last position with that index -/
theorem setAll_get_last {α} (ps : List Nat) : ∀ (a : List α) (vals : List α) {q i : Nat}, vals.length = ps.length → ps[i]? = some q →
    (∀ j : Nat, i < j → ps[j]? ≠ some q) → q < a.length → (setAll a ps vals)[q]? = vals[i]? := by
  induction ps with
  | nil => intro a vals q i _ h; cases h
  | cons p ps ih =>
    intro a vals q i hl hi hlast hq
    cases vals with
    | nil => cases hl
    | cons x vals =>
      simp only [List.length_cons, Nat.add_right_cancel_iff] at hl
      rw [setAll_cons]
      cases i with
      | zero =>
        simp only [List.getElem?_cons_zero, Option.some.injEq] at hi
        subst hi
        have hn : p ∉ ps := by
          intro hm
          obtain ⟨j, hj⟩ := List.mem_iff_getElem?.mp hm
          exact hlast (j + 1) (by omega) (by rw [List.getElem?_cons_succ]; exact hj)
        rw [setAll_get_not_mem _ _ _ hn, List.getElem?_set]
        simp [hq]
      | succ i =>
        rw [List.getElem?_cons_succ] at hi ⊢
        refine ih _ _ hl hi (fun j hj => ?_) (by rw [List.length_set]; exact hq)
        have := hlast (j + 1) (by omega)
        rw [List.getElem?_cons_succ] at this
        exact this

/-- there is a last position -/
theorem exists_last {ps : List Nat} {q : Nat} (h : q ∈ ps) : ∃ i, ps[i]? = some q ∧ ∀ j : Nat, i < j → ps[j]? ≠ some q := by
  induction ps with
  | nil => cases h
  | cons p ps ih =>
    by_cases hm : q ∈ ps
    · obtain ⟨i, h1, h2⟩ := ih hm
      refine ⟨i + 1, by rw [List.getElem?_cons_succ]; exact h1, fun j hj => ?_⟩
      cases j with
      | zero => omega
      | succ j => rw [List.getElem?_cons_succ]; exact h2 j (by omega)
    · have : q = p := by
        rcases List.mem_cons.mp h with h | h
        · exact h
        · exact absurd h hm
      subst this
      refine ⟨0, by simp, fun j hj hc => ?_⟩
      cases j with
      | zero => omega
      | succ j => rw [List.getElem?_cons_succ] at hc; exact hm (List.mem_of_getElem? hc)

theorem length_modBase (a : Bytes) (ps : List Nat) (f : UInt8 → UInt8) : (modBase a ps f).length = a.length := length_setAll _ _ _

theorem getElem?_modBase (a : Bytes) (ps : List Nat) (f : UInt8 → UInt8) (q : Nat) :
    (modBase a ps f)[q]? = if q ∈ ps then a[q]?.map f else a[q]? := by
  unfold modBase
  by_cases h : q ∈ ps
  · rw [if_pos h]
    by_cases hq : q < a.length
    · obtain ⟨i, h1, h2⟩ := exists_last h
      rw [setAll_get_last _ _ _ (by simp) h1 h2 hq, List.getElem?_map, h1]
      simp [List.getD_eq_getElem?_getD, List.getElem?_eq_getElem hq]
    · rw [List.getElem?_eq_none (by rw [length_setAll]; omega), List.getElem?_eq_none (by omega)]; rfl
  · rw [if_neg h, setAll_get_not_mem _ _ _ h]

theorem length_modSlice (a : Bytes) (s e : Nat) (f : UInt8 → UInt8) : (modSlice a s e f).length = a.length := by
  unfold modSlice splice
  simp [slice]
  omega

theorem getElem?_modSlice (a : Bytes) (s e : Nat) (f : UInt8 → UInt8) (q : Nat) :
    (modSlice a s e f)[q]? = if s ≤ q ∧ q < e then a[q]?.map f else a[q]? := by
  by_cases hs : s ≤ a.length
  · unfold modSlice
    rw [getElem?_splice _ _ _ _ (by rw [List.length_map, length_slice]; omega)]
    rw [List.length_map, length_slice]
    by_cases h1 : q < s
    · rw [if_pos h1, if_neg (by omega)]
    · rw [if_neg h1]
      by_cases h2 : q < s + (min e a.length - s)
      · rw [if_pos h2, if_pos (by omega), List.getElem?_map, getElem?_slice, if_pos (by omega)]
        congr 2; omega
      · rw [if_neg h2]
        split
        · rw [List.getElem?_eq_none (by omega)]; rfl
        · rfl
  · have : modSlice a s e f = a := by
      unfold modSlice splice slice
      rw [List.drop_eq_nil_of_le (by simp; omega)]
      simp
    rw [this]
    split
    · rw [List.getElem?_eq_none (by omega)]; rfl
    · rfl

/-- the positions of the base array a view looks at -/
def SegView.positions : SegView → List Nat
  | .whole n => List.range n
  | .part _ off len => List.range' off len
  | .order _ idx => idx

/-- a view that fits its array -/
def SegView.Wf : SegView → Prop
  | .whole _ => True
  | .part n off len => off + len ≤ n
  | .order n idx => ∀ p ∈ idx, p < n

theorem SegView.length_positions (v : SegView) : v.positions.length = v.len := by
  cases v <;> simp [positions, len]

theorem SegView.Wf.pos_lt {v : SegView} (h : v.Wf) : ∀ p ∈ v.positions, p < v.baseLen := by
  cases v with
  | whole n => intro p hp; simpa [positions, baseLen] using hp
  | part n off len => intro p hp; simp [positions, baseLen, Wf] at *; omega
  | order n idx => exact h

theorem SegView.rawIndex_eq {v : SegView} {i : Nat} (hi : i < v.len) : ∃ p, v.positions[i]? = some p ∧ v.rawIndex i = .ok p := by
  cases v with
  | whole n => exact ⟨i, List.getElem?_range hi, rfl⟩
  | part n off len => 
    simp only [SegView.len] at hi
    exact ⟨off + i, by simp [positions, hi], rfl⟩
  | order n idx =>
    simp only [len] at hi
    refine ⟨idx[i], by simp [positions, hi], ?_⟩
    unfold rawIndex
    simp [hi]

theorem mapM_getElem?_some {l : List Nat} {ps : List Nat} (h : l.all (· < ps.length)) :
    l.mapM (fun i => ps[i]?) = some (l.map fun i => ps.getD i 0) := by
  induction l with
  | nil => rfl
  | cons i l ih =>
    simp only [List.all_cons, Bool.and_eq_true, decide_eq_true_eq] at h
    simp [ih h.2, List.getElem?_eq_getElem h.1, List.getD_eq_getElem?_getD]

theorem mapM_getElem?_none {l : List Nat} {ps : List Nat} (h : ¬ l.all (· < ps.length)) :
    l.mapM (fun i => ps[i]?) = none := by
  induction l with
  | nil => simp at h
  | cons i l ih =>
    rw [List.mapM_cons]
    by_cases hi : i < ps.length
    · rw [List.getElem?_eq_getElem hi]
      rw [List.all_cons, decide_eq_true hi, Bool.true_and] at h
      rw [ih h]; rfl
    · rw [List.getElem?_eq_none (by omega)]; rfl

theorem SegView.slc_spec (v : SegView) (a b : Nat) : (v.slc a b).positions = slice v.positions a b ∧ (v.Wf → (v.slc a b).Wf) ∧
    (v.slc a b).baseLen = v.baseLen := by
  cases v with
  | whole n =>
    unfold slc
    simp only
    split
    · refine ⟨?_, fun _ => by simp [Wf], rfl⟩
      rw [show (SegView.part n 0 0).positions = [] from rfl]
      exact (List.length_eq_zero_iff.mp (by rw [length_slice]; simp [positions]; omega)).symm
    · refine ⟨?_, fun _ => by simp only [Wf]; omega, rfl⟩
      apply List.ext_getElem?
      intro k
      simp only [positions]
      rw [getElem?_slice]
      grind
  | part n off len =>
    unfold slc
    simp only
    split
    · refine ⟨?_, fun h => by simp only [Wf] at *; omega, rfl⟩
      rw [show (SegView.part n off 0).positions = [] from rfl]
      exact (List.length_eq_zero_iff.mp (by rw [length_slice]; simp [positions]; omega)).symm
    · refine ⟨?_, fun h => by simp only [Wf] at *; omega, rfl⟩
      apply List.ext_getElem?
      intro k
      simp only [positions]
      rw [getElem?_slice]
      grind
  | order n idx =>
    refine ⟨rfl, fun h p hp => h p ?_, rfl⟩
    unfold slice at hp
    exact List.mem_of_mem_take (List.mem_of_mem_drop hp)

theorem SegView.indexed_ok {v : SegView} {l : List Nat} (h : l.all (· < v.len)) : ∃ w, v.indexed l = .ok w ∧
    w.positions = (l.map fun i => v.positions.getD i 0) ∧ (v.Wf → w.Wf) ∧ w.baseLen = v.baseLen ∧ ∃ n idx, w = .order n idx := by
  have hl := h
  rw [List.all_eq_true] at h
  cases v with
  | whole n =>
    refine ⟨_, if_pos hl, ?_, fun _ => ?_, rfl, _, _, rfl⟩
    · show l.map (fun i => i + 0) = _
      apply List.map_congr_left
      intro i hi
      have : i < n := of_decide_eq_true (h i hi)
      rw [List.getD_eq_getElem?_getD, show (SegView.whole n).positions = List.range n from rfl, List.getElem?_range this]; rfl
    · intro p hp
      simp only [Nat.add_zero, List.map_id'] at hp
      exact of_decide_eq_true (h p hp)
  | part n off len =>
    refine ⟨_, if_pos hl, ?_, fun hw => ?_, rfl, _, _, rfl⟩
    · show l.map (fun i => i + off) = _
      apply List.map_congr_left
      intro i hi
      have : i < len := of_decide_eq_true (h i hi)
      rw [List.getD_eq_getElem?_getD, show (SegView.part n off len).positions = List.range' off len from rfl, List.getElem?_range' this]
      simp; omega
    · intro p hp
      obtain ⟨i, hi, rfl⟩ := List.mem_map.mp hp
      have : i < len := of_decide_eq_true (h i hi)
      simp only [Wf] at hw
      omega
  | order n idx =>
    refine ⟨_, if_pos hl, rfl, fun hw => ?_, rfl, _, _, rfl⟩
    intro p hp
    obtain ⟨i, hi, rfl⟩ := List.mem_map.mp hp
    have : i < idx.length := of_decide_eq_true (h i hi)
    rw [List.getD_eq_getElem?_getD, List.getElem?_eq_getElem this]
    exact hw _ (List.getElem_mem _)

theorem SegView.indexed_error {v : SegView} {l : List Nat} (h : ¬ l.all (· < v.len)) : v.indexed l = .error .indexError := by
  cases v <;> exact if_neg h

/-- The code's object for every nesting looks exactly at the positions it should; it exists exactly if no index is out
of range. -/
theorem Nest.build_spec (n : Nat) (t : Nest) :
    (∃ v ps, t.build n = .ok v ∧ t.pos n = some ps ∧ v.positions = ps ∧ v.Wf ∧ v.baseLen = n) ∨
      (t.build n = .error .indexError ∧ t.pos n = none) := by
  induction t with
  | base => exact Or.inl ⟨_, _, rfl, rfl, rfl, trivial, rfl⟩
  | slc inner a b ih =>
    rcases ih with ⟨v, ps, h1, h2, h3, h4, h5⟩ | ⟨h1, h2⟩
    · obtain ⟨k1, k2, k3⟩ := v.slc_spec a b
      refine Or.inl ⟨v.slc a b, _, ?_, ?_, k1.trans (by rw [h3]), k2 h4, k3.trans h5⟩
      · unfold Nest.build; rw [h1]; rfl
      · unfold Nest.pos; rw [h2]; rfl
    · refine Or.inr ⟨?_, ?_⟩
      · unfold Nest.build; rw [h1]; rfl
      · unfold Nest.pos; rw [h2]; rfl
  | reorder inner l ih =>
    rcases ih with ⟨v, ps, h1, h2, h3, h4, h5⟩ | ⟨h1, h2⟩
    · have hlen : ps.length = v.len := by rw [← h3, v.length_positions]
      by_cases hl : l.all (· < v.len)
      · obtain ⟨w, k1, k2, k3, k4, _⟩ := SegView.indexed_ok hl
        refine Or.inl ⟨w, _, ?_, ?_, k2, k3 h4, k4.trans h5⟩
        · unfold Nest.build; rw [h1]; exact k1
        · unfold Nest.pos; rw [h2, h3]; exact mapM_getElem?_some (by rw [hlen]; exact hl)
      · refine Or.inr ⟨?_, ?_⟩
        · unfold Nest.build; rw [h1]; exact SegView.indexed_error hl
        · unfold Nest.pos; rw [h2]; exact mapM_getElem?_none (by rw [hlen]; exact hl)
    · refine Or.inr ⟨?_, ?_⟩
      · unfold Nest.build; rw [h1]; rfl
      · unfold Nest.pos; rw [h2]; rfl

/-! ### Reading and writing through views -/

theorem SegView.read_get {v : SegView} (h : v.Wf) {a : Bytes} (ha : a.length = v.baseLen) (i : Nat) :
    (v.read a)[i]? = v.positions[i]?.bind fun p => a[p]? := by
  cases v with
  | whole n =>
    simp only [baseLen] at ha
    simp only [read, positions]
    by_cases hi : i < n
    · simp [hi]
    · simp [hi]; omega
  | part n off len =>
    simp only [baseLen, Wf] at ha h
    simp only [read, positions]
    rw [getElem?_slice]
    by_cases hi : i < len
    · rw [if_pos (by omega)]; simp [hi]
    · rw [if_neg (by omega)]; simp [hi]
  | order n idx =>
    simp only [baseLen, Wf] at ha h
    simp only [read, positions, List.getElem?_map]
    cases hi : idx[i]? with
    | none => rfl
    | some p =>
      have := h p (List.mem_of_getElem? hi)
      simp [List.getD_eq_getElem?_getD, List.getElem?_eq_getElem (show p < a.length by omega)]

theorem SegView.length_read {v : SegView} (h : v.Wf) {a : Bytes} (ha : a.length = v.baseLen) : (v.read a).length = v.len := by
  cases v with
  | whole n => exact ha
  | part n off len => simp only [read, SegView.len, baseLen, Wf] at *; rw [length_slice]; omega
  | order n idx => simp [read, SegView.len]

theorem SegView.write_spec {v : SegView} (h : v.Wf) {a : Bytes} (ha : a.length = v.baseLen) (i : Nat) (x : UInt8) :
    v.write a i x = (match v.positions[i]? with | some p => .ok (a.set p x) | none => .error .indexError) := by
  cases v with
  | whole n =>
    simp only [baseLen] at ha
    simp only [write, positions, ha]
    by_cases hi : i < n <;> simp [hi]
  | part n off len =>
    simp only [write, positions]
    by_cases hi : i < len <;> simp [hi]
  | order n idx => rfl

theorem SegView.modRange_eq {v : SegView} (h : v.Wf) {a : Bytes} (ha : a.length = v.baseLen) (s e : Nat) (f : UInt8 → UInt8) :
    v.modRange a s e f = modBase a (slice v.positions s e) f := by
  have hmem : ∀ (ps : List Nat) (q : Nat), q ∈ slice ps s e ↔ ∃ k, s ≤ k ∧ k < e ∧ ps[k]? = some q := by
    intro ps q
    rw [List.mem_iff_getElem?]
    constructor
    · rintro ⟨k, hk⟩
      rw [getElem?_slice] at hk
      split at hk
      · exact ⟨s + k, by omega, by omega, hk⟩
      · cases hk
    · rintro ⟨k, h1, h2, h3⟩
      refine ⟨k - s, ?_⟩
      rw [getElem?_slice, if_pos (by omega), show s + (k - s) = k by omega]
      exact h3
  cases v with
  | whole n =>
    simp only [baseLen] at ha
    simp only [modRange, positions]
    apply List.ext_getElem?
    intro q
    rw [getElem?_modSlice, getElem?_modBase]
    by_cases hq : q < n
    · have : (q ∈ slice (List.range n) s e) ↔ (s ≤ q ∧ q < e) := by
        rw [hmem]
        constructor
        · rintro ⟨k, h1, h2, h3⟩
          obtain ⟨_, rfl⟩ := List.getElem?_eq_some_iff.mp h3
          simp at *; omega
        · rintro ⟨h1, h2⟩
          exact ⟨q, h1, h2, by simp [hq]⟩
      simp only [this]
    · rw [List.getElem?_eq_none (by omega)]
      simp
  | part n off len =>
    simp only [baseLen, Wf] at ha h
    simp only [modRange, positions]
    apply List.ext_getElem?
    intro q
    rw [getElem?_modSlice, getElem?_modBase]
    have : (q ∈ slice (List.range' off len) s e) ↔ (off + min s len ≤ q ∧ q < off + min e len) := by
      rw [hmem]
      constructor
      · rintro ⟨k, h1, h2, h3⟩
        obtain ⟨hk, rfl⟩ := List.getElem?_eq_some_iff.mp h3
        rw [List.length_range'] at hk
        rw [List.getElem_range']
        omega
      · rintro ⟨h1, h2⟩
        refine ⟨q - off, by omega, by omega, ?_⟩
        rw [List.getElem?_range' (by omega)]
        congr 1; omega
    simp only [this]
  | order n idx => rfl

theorem SegView.modAt_eq {v : SegView} {a : Bytes} {l : List Nat} (hl : ∀ i ∈ l, i < v.len) (f : UInt8 → UInt8) :
    v.modAt a l f = modBase a (l.map fun i => v.positions.getD i 0) f := by
  cases v with
  | whole n =>
    simp only [modAt, positions]
    congr 1
    conv => lhs; rw [← List.map_id l]
    apply List.map_congr_left
    intro i hi
    have := hl i hi
    simp only [len] at this
    simp [List.getD_eq_getElem?_getD, this]
  | part n off len =>
    simp only [modAt, positions]
    congr 1
    apply List.map_congr_left
    intro i hi
    have := hl i hi
    simp only [SegView.len] at this
    simp [List.getD_eq_getElem?_getD, this]
  | order n idx => rfl

end Atr
