import Verif.Model.Utils
import Verif.Lemmas.Basic
/-! # Allocation of free sectors -/
namespace Atr

/-- ascending list of the positions `k + i` with `m[i] = true` -/
def freeFrom : Nat → List Bool → List Nat
  | _, [] => []
  | k, true :: m => k :: freeFrom (k + 1) m
  | k, false :: m => freeFrom (k + 1) m

/-- ascending list of free sectors of a sector map -/
def freeList (m : List Bool) : List Nat := freeFrom 0 m

theorem mem_freeFrom (m : List Bool) : ∀ k n, n ∈ freeFrom k m ↔ k ≤ n ∧ m[n - k]? = some true := by
  induction m with
  | nil => simp [freeFrom]
  | cons a m ih =>
    intro k n
    have key : (k ≤ n ∧ (a :: m)[n - k]? = some true) ↔ ((n = k ∧ a = true) ∨ (k + 1 ≤ n ∧ m[n - (k + 1)]? = some true)) := by
      by_cases h : n = k
      · subst h; simp; omega
      · by_cases h2 : k + 1 ≤ n
        · have e : n - k = (n - (k + 1)) + 1 := by omega
          rw [e, List.getElem?_cons_succ]
          constructor
          · rintro ⟨_, h4⟩; exact .inr ⟨h2, h4⟩
          · rintro (⟨h3, _⟩ | ⟨_, h4⟩)
            · exact absurd h3 h
            · exact ⟨by omega, h4⟩
        · constructor
          · rintro ⟨h3, _⟩; omega
          · rintro (⟨h3, _⟩ | ⟨h3, _⟩)
            · exact absurd h3 h
            · omega
    rw [key]
    cases a <;> simp [freeFrom, ih]

theorem mem_freeList (m : List Bool) (n : Nat) : n ∈ freeList m ↔ m[n]? = some true := by
  simp [freeList, mem_freeFrom]

theorem freeFrom_sorted (m : List Bool) : ∀ k, (freeFrom k m).Pairwise (· < ·) := by
  induction m with
  | nil => simp [freeFrom]
  | cons a m ih =>
    intro k
    cases a
    · exact ih _
    · refine List.Pairwise.cons ?_ (ih _)
      intro n hn
      have := (mem_freeFrom m (k + 1) n).mp hn
      omega

theorem freeList_sorted (m : List Bool) : (freeList m).Pairwise (· < ·) := freeFrom_sorted m 0

theorem sorted_nodup {l : List Nat} (h : l.Pairwise (· < ·)) : l.Nodup :=
  h.imp (fun hab => Nat.ne_of_lt hab)

theorem freeList_nodup (m : List Bool) : (freeList m).Nodup := sorted_nodup (freeList_sorted m)

theorem findIdx?_freeFrom (m : List Bool) : ∀ k, (m.findIdx? id).map (k + ·) = (freeFrom k m).head? := by
  induction m with
  | nil => simp [freeFrom]
  | cons a m ih =>
    intro k
    rw [List.findIdx?_cons]
    cases a
    · simp [freeFrom]
      rw [← ih (k + 1)]
      congr 1; funext x; simp; omega
    · simp [freeFrom]

theorem freeFrom_set (m : List Bool) : ∀ k n, m.findIdx? id = some n →
    freeFrom k m = (k + n) :: freeFrom k (m.set n false) := by
  induction m with
  | nil => simp
  | cons a m ih =>
    intro k n h
    rw [List.findIdx?_cons] at h
    cases a
    · simp at h
      obtain ⟨j, h1, rfl⟩ := h
      have := ih (k + 1) j h1
      simp only [List.set_cons_succ, freeFrom]
      rw [this]; congr 1; omega
    · simp at h; subst h
      simp [freeFrom]

theorem getNextFree_some {m : List Bool} {n : Nat} {m' : List Bool} (h : getNextFree m = .ok (n, m')) :
    freeList m = n :: freeList m' ∧ m' = m.set n false ∧ n < m.length := by
  unfold getNextFree at h
  cases hf : m.findIdx? id with
  | none => simp [hf] at h
  | some k =>
    simp [hf] at h
    obtain ⟨rfl, rfl⟩ := h
    have := freeFrom_set m 0 _ hf
    refine ⟨by simpa [freeList] using this, rfl, ?_⟩
    have := (List.findIdx?_eq_some_iff_getElem.mp hf)
    exact this.1

theorem getNextFree_none {m : List Bool} {e : Err} (h : getNextFree m = .error e) : freeList m = [] ∧ e = .notEnoughSpace := by
  unfold getNextFree at h
  cases hf : m.findIdx? id with
  | none =>
    simp [hf] at h
    have := findIdx?_freeFrom m 0
    rw [hf] at this
    simp at this
    exact ⟨by simpa [freeList] using this.symm, h.symm⟩
  | some k => simp [hf] at h

/-- `reserve` returns the `k` lowest-numbered free sectors and clears exactly their bits. -/
theorem reserve_ok : ∀ {k : Nat} {m : List Bool} {order m'}, reserve k m = .ok (order, m') →
    order = (freeList m).take k ∧ freeList m' = (freeList m).drop k ∧ k ≤ (freeList m).length ∧
    order.length = k ∧ m'.length = m.length ∧ ∀ i : Nat, m'[i]? = if i ∈ order then some false else m[i]? := by
  intro k
  induction k with
  | zero => intro m order m' h; simp [reserve] at h; obtain ⟨rfl, rfl⟩ := h; simp
  | succ k ih =>
    intro m order m' h
    unfold reserve at h
    cases hg : getNextFree m with
    | error e => simp [hg] at h
    | ok p =>
      obtain ⟨n, m1⟩ := p
      simp [hg] at h
      cases hr : reserve k m1 with
      | error e => simp [hr] at h
      | ok q =>
        obtain ⟨ns, m2⟩ := q
        simp [hr] at h
        obtain ⟨rfl, rfl⟩ := h
        obtain ⟨g1, g2, g3⟩ := getNextFree_some hg
        obtain ⟨r1, r2, r3, r4, r5, r6⟩ := ih hr
        refine ⟨by rw [g1, List.take_succ_cons, r1], by rw [g1, List.drop_succ_cons, r2], by rw [g1]; simp; omega,
          by simp [r4], by rw [r5, g2, List.length_set], ?_⟩
        intro i
        rw [r6, g2, List.getElem?_set]
        by_cases h1 : i ∈ ns
        · simp [h1]
        · by_cases h2 : n = i
          · subst h2; simp [h1, g3]
          · simp [h1, h2, Ne.symm h2]

theorem reserve_error : ∀ {k : Nat} {m : List Bool} {e}, reserve k m = .error e →
    e = .notEnoughSpace ∧ (freeList m).length < k := by
  intro k
  induction k with
  | zero => intro m e h; simp [reserve] at h
  | succ k ih =>
    intro m e h
    unfold reserve at h
    cases hg : getNextFree m with
    | error e' =>
      simp [hg] at h; subst h
      obtain ⟨h1, h2⟩ := getNextFree_none hg
      exact ⟨h2, by simp [h1]⟩
    | ok p =>
      obtain ⟨n, m1⟩ := p
      simp [hg] at h
      cases hr : reserve k m1 with
      | error e' =>
        simp [hr] at h; subst h
        obtain ⟨h1, h2⟩ := ih hr
        exact ⟨h1, by rw [(getNextFree_some hg).1]; simpa using h2⟩
      | ok q => simp [hr] at h

theorem reserve_total (k : Nat) (m : List Bool) (h : k ≤ (freeList m).length) : ∃ order m', reserve k m = .ok (order, m') := by
  cases hr : reserve k m with
  | error e => have := (reserve_error hr).2; omega
  | ok q => exact ⟨q.1, q.2, rfl⟩

theorem reserve_fails (k : Nat) (m : List Bool) (h : (freeList m).length < k) : reserve k m = .error .notEnoughSpace := by
  cases hr : reserve k m with
  | error e => rw [(reserve_error hr).1]
  | ok q => obtain ⟨o, m'⟩ := q; have := (reserve_ok hr).2.2.1; omega

theorem freeSectors_ok : ∀ (l : List Nat) (m : List Bool), (∀ n ∈ l, n < m.length) →
    ∃ m', freeSectors l m = .ok m' ∧ m'.length = m.length ∧ ∀ i : Nat, m'[i]? = if i ∈ l then some true else m[i]? := by
  intro l
  induction l with
  | nil => intro m _; exact ⟨m, rfl, rfl, by simp⟩
  | cons n l ih =>
    intro m h
    have hn := h n (by simp)
    obtain ⟨m', h1, h2, h3⟩ := ih (m.set n true) (by intro x hx; rw [List.length_set]; exact h x (by simp [hx]))
    refine ⟨m', by simp [freeSectors, hn, h1], by rw [h2, List.length_set], ?_⟩
    intro i
    rw [h3, List.getElem?_set]
    by_cases h1 : i ∈ l
    · simp [h1]
    · by_cases h2 : n = i
      · subst h2; simp [h1, hn]
      · simp [h1, h2, Ne.symm h2]

theorem ext_map {m m' : List Bool} (h : ∀ i : Nat, m[i]? = m'[i]?) : m = m' := List.ext_getElem? h

/-- a duplicate-free list of numbers below `n` has at most `n` elements -/
theorem nodup_length_le : ∀ (n : Nat) (l : List Nat), l.Nodup → (∀ x ∈ l, x < n) → l.length ≤ n := by
  intro n
  induction n with
  | zero => intro l _ h; cases l with
    | nil => simp
    | cons a l => exact absurd (h a (by simp)) (by omega)
  | succ n ih =>
    intro l hn h
    have h1 := ih (l.filter (· ≠ n)) (hn.filter _) (by
      intro x hx
      have := List.mem_filter.mp hx
      have := h x this.1
      simp at *; omega)
    have h2 : l.length ≤ (l.filter (· ≠ n)).length + 1 := by
      clear ih h h1
      induction l with
      | nil => simp
      | cons a l ih =>
        have hn' := List.nodup_cons.mp hn
        by_cases ha : a = n
        · subst ha
          have : l.filter (· ≠ a) = l := by
            rw [List.filter_eq_self]; intro x hx; simp; intro h; subst h; exact hn'.1 hx
          rw [List.filter_cons_of_neg (by simp), this]; simp
        · have := ih hn'.2
          simp [ha] at *; omega
    omega

end Atr
