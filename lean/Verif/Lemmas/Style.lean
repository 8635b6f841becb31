import Verif.Lemmas.Segments
import Verif.Model.Style
/-! # Lemmas about styles -/
namespace Atr

/-- position `i` lies in one of the ranges (given in either order) -/
def InRanges (ranges : List (Nat × Nat)) (i : Nat) : Prop := ∃ r ∈ ranges, min r.1 r.2 ≤ i ∧ i < max r.1 r.2

/-- base position `p` is shown at a position that lies in one of the ranges -/
def SegView.Covers (v : SegView) (ranges : List (Nat × Nat)) (p : Nat) : Prop := ∃ i, InRanges ranges i ∧ v.positions[i]? = some p

theorem orderRange_eq (r : Nat × Nat) : orderRange r = (min r.1 r.2, max r.1 r.2) := by
  unfold orderRange
  split <;> ext <;> simp <;> omega

theorem mem_slice {α} {ps : List α} {s e : Nat} {q : α} : q ∈ slice ps s e ↔ ∃ k, s ≤ k ∧ k < e ∧ ps[k]? = some q := by
  rw [List.mem_iff_getElem?]
  constructor
  · rintro ⟨k, hk⟩
    rw [getElem?_slice] at hk
    split at hk
    · exact ⟨s + k, by omega, by omega, hk⟩
    · cases hk
  · rintro ⟨k, h1, h2, h3⟩
    refine ⟨k - s, ?_⟩
    rw [getElem?_slice, if_pos (by omega), show s + (k - s) = k by omega]
    exact h3

theorem SegView.length_modRange {v : SegView} (h : v.Wf) {a : Bytes} (ha : a.length = v.baseLen) (s e : Nat) (f : UInt8 → UInt8) :
    (v.modRange a s e f).length = a.length := by
  rw [SegView.modRange_eq h ha, length_modBase]

open Classical in
/-- a sequence of range updates by an idempotent function -/
theorem foldRanges_get {v : SegView} (h : v.Wf) (f : UInt8 → UInt8) (hf : ∀ x, f (f x) = f x) (ranges : List (Nat × Nat)) :
    ∀ (a : Bytes), a.length = v.baseLen →
    (ranges.foldl (fun s r => v.modRange s (orderRange r).1 (orderRange r).2 f) a).length = a.length ∧
    ∀ p, (ranges.foldl (fun s r => v.modRange s (orderRange r).1 (orderRange r).2 f) a)[p]? =
      if v.Covers ranges p then a[p]?.map f else a[p]? := by
  induction ranges with
  | nil =>
    intro a ha
    refine ⟨rfl, fun p => ?_⟩
    rw [if_neg]; rfl
    rintro ⟨i, ⟨r, hr, _⟩, _⟩
    cases hr
  | cons r ranges ih =>
    intro a ha
    rw [List.foldl_cons]
    have hl := SegView.length_modRange h ha (orderRange r).1 (orderRange r).2 f
    obtain ⟨i1, i2⟩ := ih (v.modRange a (orderRange r).1 (orderRange r).2 f) (hl.trans ha)
    refine ⟨i1.trans hl, fun p => ?_⟩
    rw [i2 p, SegView.modRange_eq h ha, getElem?_modBase, orderRange_eq]
    simp only [mem_slice]
    have hc : v.Covers (r :: ranges) p ↔ v.Covers ranges p ∨ ∃ k, min r.1 r.2 ≤ k ∧ k < max r.1 r.2 ∧ v.positions[k]? = some p := by
      constructor
      · rintro ⟨i, ⟨q, hq, h1⟩, h2⟩
        rcases List.mem_cons.mp hq with rfl | hq
        · exact Or.inr ⟨i, h1.1, h1.2, h2⟩
        · exact Or.inl ⟨i, ⟨q, hq, h1⟩, h2⟩
      · rintro (⟨i, ⟨q, hq, h1⟩, h2⟩ | ⟨i, h1, h2, h3⟩)
        · exact ⟨i, ⟨q, List.mem_cons_of_mem _ hq, h1⟩, h2⟩
        · exact ⟨i, ⟨r, List.mem_cons_self, h1, h2⟩, h3⟩
    rw [hc]
    by_cases c1 : v.Covers ranges p <;> by_cases c2 : ∃ k, min r.1 r.2 ≤ k ∧ k < max r.1 r.2 ∧ v.positions[k]? = some p
    · rw [if_pos c1, if_pos c2, if_pos (Or.inl c1), Option.map_map]
      congr 1
      funext x
      exact hf x
    · rw [if_pos c1, if_neg c2, if_pos (Or.inl c1)]
    · rw [if_neg c1, if_pos c2, if_pos (Or.inr c2)]
    · rw [if_neg c1, if_neg c2, if_neg (by rintro (h | h); exact c1 h; exact c2 h)]

theorem or_idem (b x : UInt8) : (x ||| b) ||| b = x ||| b := by rw [UInt8.or_assoc, UInt8.or_self]
theorem and_idem (m x : UInt8) : (x &&& m) &&& m = x &&& m := by rw [UInt8.and_assoc, UInt8.and_self]

open Classical in
theorem setStyleRanges_get {v : SegView} (h : v.Wf) {a : Bytes} (ha : a.length = v.baseLen) (ranges : List (Nat × Nat)) (k : Kind) :
    (setStyleRanges v a ranges k).length = a.length ∧
    ∀ p, (setStyleRanges v a ranges k)[p]? = if v.Covers ranges p then a[p]?.map (· ||| styleBits k) else a[p]? :=
  foldRanges_get h _ (or_idem _) ranges a ha

open Classical in
theorem clearStyleRanges_get {v : SegView} (h : v.Wf) {a : Bytes} (ha : a.length = v.baseLen) (ranges : List (Nat × Nat)) (k : Kind) :
    (clearStyleRanges v a ranges k).length = a.length ∧
    ∀ p, (clearStyleRanges v a ranges k)[p]? = if v.Covers ranges p then a[p]?.map (· &&& styleMask k) else a[p]? :=
  foldRanges_get h _ (and_idem _) ranges a ha

/-! ### Runs -/

/-- ranges in order, none empty, none touching the next -/
def Separated : List (Nat × Nat) → Prop
  | [] => True
  | [r] => r.1 < r.2
  | r :: q :: l => r.1 < r.2 ∧ r.2 < q.1 ∧ Separated (q :: l)

theorem whereTrue_mem (m : List Bool) : ∀ (i x : Nat), x ∈ whereTrue i m ↔ i ≤ x ∧ m[x - i]? = some true := by
  induction m with
  | nil => intro i x; simp [whereTrue]
  | cons b m ih =>
    intro i x
    unfold whereTrue
    have hs : ∀ x, i + 1 ≤ x → (b :: m)[x - i]? = m[x - (i + 1)]? := by
      intro x hx
      rw [show x - i = (x - (i + 1)) + 1 by omega, List.getElem?_cons_succ]
    by_cases hb : b = true
    · rw [if_pos hb, List.mem_cons, ih]
      subst hb
      constructor
      · rintro (rfl | ⟨h1, h2⟩)
        · exact ⟨Nat.le_refl _, by simp⟩
        · exact ⟨by omega, by rw [hs x h1]; exact h2⟩
      · rintro ⟨h1, h2⟩
        by_cases hx : x = i
        · exact Or.inl hx
        · exact Or.inr ⟨by omega, by rw [← hs x (by omega)]; exact h2⟩
    · rw [if_neg hb, ih]
      constructor
      · rintro ⟨h1, h2⟩
        exact ⟨by omega, by rw [hs x h1]; exact h2⟩
      · rintro ⟨h1, h2⟩
        by_cases hx : x = i
        · subst hx
          rw [Nat.sub_self] at h2
          simp at h2
          exact absurd h2 hb
        · exact ⟨by omega, by rw [← hs x (by omega)]; exact h2⟩

theorem whereTrue_sorted (m : List Bool) : ∀ i, (whereTrue i m).Pairwise (· < ·) := by
  induction m with
  | nil => intro i; exact List.Pairwise.nil
  | cons b m ih =>
    intro i
    unfold whereTrue
    split
    · refine List.pairwise_cons.mpr ⟨fun x hx => ?_, ih (i + 1)⟩
      have := ((whereTrue_mem m (i + 1) x).mp hx).1
      omega
    · exact ih (i + 1)

/-- first and one-past-last of every group, as `bool_to_ranges` does it -/
def groupRanges (gs : List (List Nat)) : List (Nat × Nat) :=
  gs.filterMap fun g => match g with
    | [] => none
    | a :: l => some (a, (a :: l).getLastD 0 + 1)

theorem splitBetween_ne_nil {α} (j : α → α → Bool) (l : List α) : ∃ g gs, splitBetween j l = g :: gs ∧ (∀ a t, l = a :: t → ∃ g', g = a :: g') := by
  match l with
  | [] => exact ⟨[], [], rfl, fun a t h => by cases h⟩
  | [a] => exact ⟨[a], [], rfl, fun a' t h => by cases h; exact ⟨[], rfl⟩⟩
  | a :: b :: l =>
    obtain ⟨g, gs, h1, _⟩ := splitBetween_ne_nil j (b :: l)
    unfold splitBetween
    rw [h1]
    by_cases hj : j a b = true
    · simp only [hj, if_true]
      exact ⟨a :: g, gs, rfl, fun a' t h => by cases h; exact ⟨g, rfl⟩⟩
    · simp only [hj]
      exact ⟨[a], g :: gs, rfl, fun a' t h => by cases h; exact ⟨[], rfl⟩⟩

theorem groupRanges_spec (w : List Nat) (hs : w.Pairwise (· < ·)) :
    (∀ x, x ∈ w ↔ ∃ r ∈ groupRanges (splitBetween (fun a b => b == a + 1) w), r.1 ≤ x ∧ x < r.2) ∧
    Separated (groupRanges (splitBetween (fun a b => b == a + 1) w)) ∧
    (groupRanges (splitBetween (fun a b => b == a + 1) w)).head?.map (·.1) = w.head? := by
  match w with
  | [] => exact ⟨fun x => ⟨fun h => (nomatch h), fun ⟨r, hr, _⟩ => (nomatch hr)⟩, trivial, rfl⟩
  | [a] =>
    refine ⟨fun x => ?_, ?_, rfl⟩
    · simp [splitBetween, groupRanges]; omega
    · simp [splitBetween, groupRanges, Separated]
  | a :: b :: l =>
    have hs' := (List.pairwise_cons.mp hs).2
    have hab := (List.pairwise_cons.mp hs).1 b List.mem_cons_self
    obtain ⟨i1, i2, i3⟩ := groupRanges_spec (b :: l) hs'
    obtain ⟨g, gs, h1, h2⟩ := splitBetween_ne_nil (fun a b => b == a + 1) (b :: l)
    obtain ⟨g', hg⟩ := h2 b l rfl
    subst hg
    rw [h1] at i1 i2 i3
    have hgr : groupRanges ((b :: g') :: gs) = (b, (b :: g').getLastD 0 + 1) :: groupRanges gs := rfl
    rw [hgr] at i1 i2 i3
    unfold splitBetween
    rw [h1]
    by_cases hj : b = a + 1
    · have : (b == a + 1) = true := by simp [hj]
      simp only [this, if_true]
      have hgr2 : groupRanges ((a :: b :: g') :: gs) = (a, (b :: g').getLastD 0 + 1) :: groupRanges gs := by
        show (a, (a :: b :: g').getLastD 0 + 1) :: groupRanges gs = _
        simp
      rw [hgr2]
      refine ⟨fun x => ?_, ?_, rfl⟩
      · rw [List.mem_cons, i1 x]
        have hlt : b < (b :: g').getLastD 0 + 1 := by
          cases hgs : groupRanges gs with
          | nil => rw [hgs] at i2; exact i2
          | cons q l => rw [hgs] at i2; exact i2.1
        constructor
        · rintro (rfl | ⟨r, hr, h3⟩)
          · exact ⟨_, List.mem_cons_self, Nat.le_refl _, by omega⟩
          · rcases List.mem_cons.mp hr with rfl | hr
            · exact ⟨_, List.mem_cons_self, by simp only at h3 ⊢; omega⟩
            · exact ⟨r, List.mem_cons_of_mem _ hr, h3⟩
        · rintro ⟨r, hr, h3⟩
          rcases List.mem_cons.mp hr with rfl | hr
          · simp only at h3
            by_cases hx : x = a
            · exact Or.inl hx
            · exact Or.inr ⟨_, List.mem_cons_self, by simp only; omega⟩
          · exact Or.inr ⟨r, List.mem_cons_of_mem _ hr, h3⟩
      · cases hgs : groupRanges gs with
        | nil => rw [hgs] at i2; simp only [Separated] at i2 ⊢; omega
        | cons q l => rw [hgs] at i2; simp only [Separated] at i2 ⊢; exact ⟨by omega, i2.2⟩
    · have : (b == a + 1) = false := by simp [hj]
      simp only [this]
      have hgr2 : groupRanges ([a] :: (b :: g') :: gs) = (a, a + 1) :: (b, (b :: g').getLastD 0 + 1) :: groupRanges gs := rfl
      rw [if_neg (by simp), hgr2]
      refine ⟨fun x => ?_, ?_, rfl⟩
      · rw [List.mem_cons, i1 x]
        constructor
        · rintro (rfl | ⟨r, hr, h3⟩)
          · exact ⟨_, List.mem_cons_self, Nat.le_refl _, by simp⟩
          · exact ⟨r, List.mem_cons_of_mem _ hr, h3⟩
        · rintro ⟨r, hr, h3⟩
          rcases List.mem_cons.mp hr with rfl | hr
          · simp only at h3
            exact Or.inl (by omega)
          · exact Or.inr ⟨r, hr, h3⟩
      · exact ⟨by simp, by simp only; omega, i2⟩

/-- `bool_to_ranges` gives the maximal runs of `true` -/
theorem boolToRanges_spec (m : List Bool) : Separated (boolToRanges m) ∧
    ∀ x, m[x]? = some true ↔ ∃ r ∈ boolToRanges m, r.1 ≤ x ∧ x < r.2 := by
  obtain ⟨h1, h2, _⟩ := groupRanges_spec (whereTrue 0 m) (whereTrue_sorted m 0)
  refine ⟨h2, fun x => ?_⟩
  have := h1 x
  rw [whereTrue_mem, Nat.sub_zero] at this
  rw [← show (0 ≤ x ∧ m[x]? = some true) ↔ m[x]? = some true from ⟨fun h => h.2, fun h => ⟨Nat.zero_le _, h⟩⟩]
  exact this

theorem Separated.tail {r : Nat × Nat} {l : List (Nat × Nat)} (h : Separated (r :: l)) : Separated l := by
  cases l with
  | nil => trivial
  | cons q l => exact h.2.2

theorem Separated.lt_all {r : Nat × Nat} {l : List (Nat × Nat)} (h : Separated (r :: l)) : r.1 < r.2 ∧ ∀ q ∈ l, r.2 < q.1 := by
  induction l generalizing r with
  | nil => exact ⟨h, fun q hq => (nomatch hq)⟩
  | cons q l ih =>
    obtain ⟨h1, h2, h3⟩ := h
    obtain ⟨k1, k2⟩ := ih h3
    refine ⟨h1, fun s hs => ?_⟩
    rcases List.mem_cons.mp hs with rfl | hs
    · exact h2
    · have := k2 s hs; omega

/-- the ranges that cover a set and do not touch each other are determined by the set -/
theorem Separated.unique : ∀ {l l' : List (Nat × Nat)}, Separated l → Separated l' →
    (∀ x, (∃ r ∈ l, r.1 ≤ x ∧ x < r.2) ↔ ∃ r ∈ l', r.1 ≤ x ∧ x < r.2) → l = l' := by
  intro l
  induction l with
  | nil =>
    intro l' _ h' h
    cases l' with
    | nil => rfl
    | cons q l' =>
      obtain ⟨r, hr, _⟩ := (h q.1).mpr ⟨q, List.mem_cons_self, Nat.le_refl _, h'.lt_all.1⟩
      cases hr
  | cons r l ih =>
    intro l' hs h' h
    cases l' with
    | nil =>
      obtain ⟨q, hq, _⟩ := (h r.1).mp ⟨r, List.mem_cons_self, Nat.le_refl _, hs.lt_all.1⟩
      cases hq
    | cons q l' =>
      obtain ⟨r1, r2⟩ := hs.lt_all
      obtain ⟨q1, q2⟩ := h'.lt_all
      have e1 : r.1 = q.1 := by
        obtain ⟨s, m, a⟩ := (h r.1).mp ⟨r, List.mem_cons_self, Nat.le_refl _, r1⟩
        obtain ⟨t, n, b⟩ := (h q.1).mpr ⟨q, List.mem_cons_self, Nat.le_refl _, q1⟩
        rcases List.mem_cons.mp m with rfl | m <;> rcases List.mem_cons.mp n with rfl | n
        · omega
        · have := r2 t n; omega
        · have := q2 s m; omega
        · have := q2 s m; have := r2 t n; omega
      have e2 : r.2 = q.2 := by
        have hr : ∀ s ∈ r :: l, ¬ (s.1 ≤ r.2 ∧ r.2 < s.2) := by
          intro s m
          rcases List.mem_cons.mp m with rfl | m
          · omega
          · have := r2 s m; omega
        have hq : ∀ s ∈ q :: l', ¬ (s.1 ≤ q.2 ∧ q.2 < s.2) := by
          intro s m
          rcases List.mem_cons.mp m with rfl | m
          · omega
          · have := q2 s m; omega
        rcases Nat.lt_trichotomy r.2 q.2 with hlt | heq | hlt
        · obtain ⟨s, m, a⟩ := (h r.2).mpr ⟨q, List.mem_cons_self, by omega, hlt⟩
          exact absurd a (hr s m)
        · exact heq
        · obtain ⟨s, m, a⟩ := (h q.2).mp ⟨r, List.mem_cons_self, by omega, hlt⟩
          exact absurd a (hq s m)
      have e : r = q := Prod.ext e1 e2
      subst e
      congr 1
      refine ih hs.tail h'.tail fun x => ?_
      have := h x
      constructor
      · rintro ⟨s, m, a⟩
        obtain ⟨t, n, b⟩ := this.mp ⟨s, List.mem_cons_of_mem _ m, a⟩
        rcases List.mem_cons.mp n with rfl | n
        · have := r2 s m; omega
        · exact ⟨t, n, b⟩
      · rintro ⟨s, m, a⟩
        obtain ⟨t, n, b⟩ := this.mpr ⟨s, List.mem_cons_of_mem _ m, a⟩
        rcases List.mem_cons.mp n with rfl | n
        · have := q2 s m; omega
        · exact ⟨t, n, b⟩

/-! ### Binary search -/

/-- the search ends between the elements that do not satisfy the test and those that do -/
theorem bisectLoop_spec {α} (goLeft : α → Bool) (l : List α) (m : Nat)
    (hlo : ∀ i (h : i < l.length), i < m → goLeft l[i] = false) (hhi : ∀ i (h : i < l.length), m ≤ i → goLeft l[i] = true) :
    ∀ (fuel lo hi : Nat), lo ≤ m → m ≤ hi → hi ≤ l.length → hi - lo < fuel → bisectLoop goLeft l fuel lo hi = m := by
  intro fuel
  induction fuel with
  | zero => intro lo hi _ _ _ h; omega
  | succ fuel ih =>
    intro lo hi h1 h2 h3 h4
    unfold bisectLoop
    by_cases hlt : lo < hi
    · rw [if_pos hlt]
      have hmid : (lo + hi) / 2 < l.length := by omega
      simp only [List.getElem?_eq_getElem hmid]
      by_cases hc : m ≤ (lo + hi) / 2
      · rw [hhi _ hmid hc, if_pos rfl]
        exact ih lo _ h1 hc (by omega) (by omega)
      · rw [hlo _ hmid (by omega), if_neg (by simp)]
        exact ih _ hi (by omega) h2 h3 (by omega)
    · rw [if_neg hlt]; omega

end Atr
