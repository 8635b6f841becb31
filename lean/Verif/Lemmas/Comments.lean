import Verif.Lemmas.Style
/-!
# Lemmas about comment dictionaries, session data and style partitions
-/
namespace Atr

/-! ### Dictionaries -/

theorem dictGet_nil {α : Type} (x : Nat) : dictGet ([] : List (Nat × α)) x = none := rfl

theorem dictGet_cons {α : Type} (q : Nat × α) (d : List (Nat × α)) (x : Nat) :
    dictGet (q :: d) x = if q.1 = x then some q.2 else dictGet d x := by
  unfold dictGet
  rw [List.find?_cons]
  by_cases h : q.1 = x
  · simp [h]
  · simp only [show (q.1 == x) = false by simpa using h, if_neg h]

theorem dictGet_append {α : Type} (d e : List (Nat × α)) (x : Nat) : dictGet (d ++ e) x = (dictGet d x).or (dictGet e x) := by
  induction d with
  | nil => simp [dictGet_nil]
  | cons q d ih =>
    rw [List.cons_append, dictGet_cons, dictGet_cons]
    split
    · simp
    · exact ih

theorem dictGet_none {α : Type} (d : List (Nat × α)) (x : Nat) : dictGet d x = none ↔ x ∉ d.map (·.1) := by
  induction d with
  | nil => simp [dictGet_nil]
  | cons q d ih =>
    rw [dictGet_cons]
    by_cases h : q.1 = x
    · simp [h]
    · simp only [h, if_false, List.map_cons, List.mem_cons, ih]
      constructor
      · rintro h1 (h2 | h2)
        · exact h h2.symm
        · exact h1 h2
      · intro h1 h2; exact h1 (Or.inr h2)

theorem dictGet_set {α : Type} (d : List (Nat × α)) (k : Nat) (v : α) (x : Nat) :
    dictGet (dictSet d k v) x = if x = k then some v else dictGet d x := by
  unfold dictSet
  by_cases h : d.any (·.1 == k) = true
  · rw [if_pos h]
    induction d with
    | nil => simp at h
    | cons q d ih =>
      rw [List.map_cons, dictGet_cons, dictGet_cons]
      by_cases hq : q.1 = k
      · simp only [hq, beq_self_eq_true, if_true]
        by_cases hx : x = k
        · simp [hx]
        · rw [if_neg (fun h => hx h.symm), if_neg hx, if_neg (fun h => hx h.symm)]
          clear ih h
          induction d with
          | nil => rfl
          | cons r d ih =>
            rw [List.map_cons, dictGet_cons, dictGet_cons, ih]
            by_cases hr : r.1 = k
            · simp [hr, show ¬ k = x from fun h => hx h.symm]
            · simp [hr]
      · have h' : d.any (·.1 == k) = true := by simpa [hq] using h
        simp only [show (q.1 == k) = false by simpa using hq, Bool.false_eq_true, if_false]
        by_cases hqx : q.1 = x
        · have hx : x ≠ k := by rw [← hqx]; exact hq
          simp [hqx, hx]
        · simp only [hqx, if_false]
          exact ih h'
  · rw [if_neg h, dictGet_append, dictGet_cons, dictGet_nil]
    by_cases hx : x = k
    · subst hx
      have : dictGet d x = none := by
        rw [dictGet_none]
        intro hm
        obtain ⟨q, hq, he⟩ := List.mem_map.mp hm
        exact h (List.any_eq_true.mpr ⟨q, hq, by simpa using he⟩)
      rw [this]; simp
    · rw [if_neg (fun h => hx h.symm), if_neg hx]; simp

theorem dictGet_del {α : Type} (d : List (Nat × α)) (k : Nat) (x : Nat) : dictGet (dictDel d k) x = if x = k then none else dictGet d x := by
  unfold dictDel
  induction d with
  | nil => rw [List.filter_nil, dictGet_nil, ite_self]
  | cons q d ih =>
    rw [List.filter_cons, dictGet_cons]
    by_cases hq : q.1 = k
    · simp only [hq, beq_self_eq_true, Bool.not_true, Bool.false_eq_true, if_false, ih]
      by_cases hx : x = k
      · simp [hx]
      · rw [if_neg hx, if_neg hx, if_neg (fun h => hx h.symm)]
    · simp only [show (q.1 == k) = false by simpa using hq, Bool.not_false, if_true, dictGet_cons, ih]
      by_cases hqx : q.1 = x
      · have hx : x ≠ k := by rw [← hqx]; exact hq
        simp [hqx, hx]
      · simp [hqx]

theorem dictGet_foldl_del {α : Type} (ps : List Nat) : ∀ (d : List (Nat × α)) (x : Nat),
    dictGet (ps.foldl dictDel d) x = if x ∈ ps then none else dictGet d x := by
  induction ps with
  | nil => intro d x; simp
  | cons p ps ih =>
    intro d x
    rw [List.foldl_cons, ih, dictGet_del]
    by_cases h1 : x ∈ ps
    · simp [h1]
    · by_cases h2 : x = p
      · simp [h2]
      · simp [h1, h2]

/-- storing the items of a dictionary one after the other into an empty one gives the same look-ups -/
theorem dictGet_foldl_set {α : Type} (l : List (Nat × α)) : ∀ (d : List (Nat × α)) (x : Nat), (l.map (·.1)).Nodup →
    dictGet (l.foldl (fun d p => dictSet d p.1 p.2) d) x = (dictGet l x).or (dictGet d x) := by
  induction l with
  | nil => intro d x _; rfl
  | cons q l ih =>
    intro d x hn
    rw [List.map_cons, List.nodup_cons] at hn
    rw [List.foldl_cons, ih _ _ hn.2, dictGet_set, dictGet_cons]
    by_cases hx : q.1 = x
    · subst hx
      rw [(dictGet_none l q.1).mpr hn.1]
      simp
    · rw [if_neg hx, if_neg (fun h => hx h.symm)]

theorem insertKey_mem {α : Type} (q : Nat × α) (l : List (Nat × α)) (r : Nat × α) : r ∈ insertKey q l ↔ r = q ∨ r ∈ l := by
  induction l with
  | nil => simp [insertKey]
  | cons y l ih =>
    unfold insertKey
    split
    · rw [List.mem_cons]
    · rw [List.mem_cons, ih, List.mem_cons]
      constructor
      · rintro (h | h | h) <;> simp [h]
      · rintro (h | h | h) <;> simp [h]

theorem insertKey_keys {α : Type} (q : Nat × α) (l : List (Nat × α)) (hn : ((q :: l).map (·.1)).Nodup) : ((insertKey q l).map (·.1)).Nodup := by
  induction l with
  | nil => exact hn
  | cons y l ih =>
    unfold insertKey
    split
    · exact hn
    · rw [List.map_cons, List.map_cons, List.nodup_cons, List.nodup_cons] at hn
      rw [List.map_cons, List.nodup_cons]
      refine ⟨?_, ih (by rw [List.map_cons, List.nodup_cons]; exact ⟨fun h => hn.1 (List.mem_cons_of_mem _ h), hn.2.2⟩)⟩
      intro hm
      obtain ⟨r, hr, he⟩ := List.mem_map.mp hm
      rcases (insertKey_mem q l r).mp hr with h | h
      · subst h; exact hn.1 (by rw [he]; exact List.mem_cons_self)
      · exact hn.2.1 (List.mem_map.mpr ⟨r, h, he⟩)

theorem insertKey_get {α : Type} (q : Nat × α) (l : List (Nat × α)) (x : Nat) (hn : q.1 ∉ l.map (·.1)) :
    dictGet (insertKey q l) x = dictGet (q :: l) x := by
  induction l with
  | nil => rfl
  | cons y l ih =>
    unfold insertKey
    split
    · rfl
    · rw [List.map_cons, List.mem_cons] at hn
      rw [dictGet_cons, ih (fun h => hn (Or.inr h)), dictGet_cons, dictGet_cons, dictGet_cons]
      by_cases h1 : y.1 = x
      · by_cases h2 : q.1 = x
        · exact absurd (Or.inl (h2.trans h1.symm)) hn
        · simp [h1, h2]
      · simp [h1]

theorem sortedComments_spec (c : Comments) (hn : (c.map (·.1)).Nodup) :
    ((sortedComments c).map (·.1)).Nodup ∧ (∀ r, r ∈ sortedComments c ↔ r ∈ c) ∧ ∀ x, dictGet (sortedComments c) x = dictGet c x := by
  induction c with
  | nil => exact ⟨List.nodup_nil, fun _ => Iff.rfl, fun _ => rfl⟩
  | cons q c ih =>
    rw [List.map_cons, List.nodup_cons] at hn
    obtain ⟨i1, i2, i3⟩ := ih hn.2
    have hq : q.1 ∉ (sortedComments c).map (·.1) := by
      intro hm
      obtain ⟨r, hr, he⟩ := List.mem_map.mp hm
      exact hn.1 (List.mem_map.mpr ⟨r, (i2 r).mp hr, he⟩)
    show ((insertKey q (sortedComments c)).map (·.1)).Nodup ∧ (∀ r, r ∈ insertKey q (sortedComments c) ↔ r ∈ q :: c) ∧
      ∀ x, dictGet (insertKey q (sortedComments c)) x = dictGet (q :: c) x
    refine ⟨insertKey_keys _ _ (by rw [List.map_cons, List.nodup_cons]; exact ⟨hq, i1⟩), fun r => ?_, fun x => ?_⟩
    · rw [insertKey_mem, i2, List.mem_cons]
    · rw [insertKey_get _ _ _ hq, dictGet_cons, i3, dictGet_cons]

/-! ### Raw indexes of a range -/

theorem mapM_ok_of {α β : Type} (f : α → Except Err β) (g : α → β) (l : List α) (h : ∀ x ∈ l, f x = .ok (g x)) : l.mapM f = .ok (l.map g) := by
  induction l with
  | nil => rfl
  | cons x l ih =>
    rw [List.mapM_cons, h x List.mem_cons_self, ih fun y hy => h y (List.mem_cons_of_mem _ hy)]
    rfl

theorem rawIndexes_eq {v : SegView} {s e : Nat} (he : e ≤ v.len) : rawIndexes v s e = .ok (slice v.positions s e) := by
  unfold rawIndexes
  rw [mapM_ok_of v.rawIndex (fun i => v.positions.getD i 0)]
  · congr 1
    apply List.ext_getElem?
    intro j
    rw [List.getElem?_map, getElem?_slice]
    by_cases hj : j < e - s
    · have hl : s + j < v.positions.length := by rw [v.length_positions]; omega
      rw [List.getElem?_range' hj, if_pos (by omega), Option.map_some, Nat.one_mul, List.getD_eq_getElem?_getD, List.getElem?_eq_getElem hl]
      rfl
    · rw [List.getElem?_eq_none (by simp; omega), if_neg (by omega)]; rfl
  · intro i hi
    have hi := (List.mem_range'_1.mp hi)
    obtain ⟨p, hp, hr⟩ := SegView.rawIndex_eq (v := v) (show i < v.len by omega)
    rw [hr, List.getD_eq_getElem?_getD, hp]
    rfl

/-! ### Runs of equal values -/

theorem splitBetween_eq_spec (l : Bytes) : (splitBetween (fun a b => a == b) l).flatten = l ∧
    (l ≠ [] → ∀ g ∈ splitBetween (fun a b => a == b) l, g ≠ []) ∧
    ∀ g ∈ splitBetween (fun a b => a == b) l, ∀ x ∈ g, ∀ y ∈ g, x = y := by
  match l with
  | [] => exact ⟨rfl, fun h => absurd rfl h, fun g hg x hx => by simp [splitBetween] at hg; subst hg; cases hx⟩
  | [a] =>
    refine ⟨rfl, fun _ g hg => ?_, fun g hg x hx y hy => ?_⟩
    · simp [splitBetween] at hg; subst hg; simp
    · simp [splitBetween] at hg; subst hg; simp at hx hy; rw [hx, hy]
  | a :: b :: l =>
    obtain ⟨i1, i2, i3⟩ := splitBetween_eq_spec (b :: l)
    obtain ⟨g, gs, h1, h2⟩ := splitBetween_ne_nil (fun a b => a == b) (b :: l)
    obtain ⟨g', hg⟩ := h2 b l rfl
    subst hg
    rw [h1] at i1 i2 i3
    unfold splitBetween
    rw [h1]
    by_cases hj : a = b
    · subst hj
      simp only [beq_self_eq_true, if_true]
      refine ⟨?_, fun _ g hg => ?_, fun g hg x hx y hy => ?_⟩
      · rw [List.flatten_cons] at i1 ⊢
        rw [List.cons_append, i1]
      · rcases List.mem_cons.mp hg with h | h
        · rw [h]; simp
        · exact i2 (by simp) g (List.mem_cons_of_mem _ h)
      · rcases List.mem_cons.mp hg with h | h
        · subst h
          have key : ∀ z, z ∈ a :: a :: g' → z = a := by
            intro z hz
            rcases List.mem_cons.mp hz with h | h
            · exact h
            · exact i3 _ List.mem_cons_self z h a List.mem_cons_self
          rw [key x hx, key y hy]
        · exact i3 g (List.mem_cons_of_mem _ h) x hx y hy
    · simp only [show (a == b) = false by simpa using hj]
      refine ⟨?_, fun _ g hg => ?_, fun g hg x hx y hy => ?_⟩
      · show ([a] :: (b :: g') :: gs).flatten = _
        rw [List.flatten_cons, i1]; rfl
      · rcases List.mem_cons.mp hg with h | h
        · rw [h]; simp
        · exact i2 (by simp) g h
      · rcases List.mem_cons.mp hg with h | h
        · subst h; simp at hx hy; rw [hx, hy]
        · exact i3 g h x hx y hy

end Atr
