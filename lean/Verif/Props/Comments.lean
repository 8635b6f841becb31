import Verif.Lemmas.Comments
import Verif.Props.Style
/-!
# C27, C28, C29: style partition, sessions, comment undo
-/
namespace Atr

/-! ### C27 -/

/-- the ranges follow each other without gap from `a` to `b`, none empty -/
def Tiles : Nat → List ((Nat × Nat) × UInt8) → Nat → Prop
  | a, [], b => a = b
  | a, r :: l, b => r.1.1 = a ∧ a < r.1.2 ∧ Tiles r.1.2 l b

theorem tiles_snoc (x : (Nat × Nat) × UInt8) (b : Nat) (l : List ((Nat × Nat) × UInt8)) : ∀ a,
    Tiles a (l ++ [x]) b ↔ Tiles a l x.1.1 ∧ x.1.1 < x.1.2 ∧ x.1.2 = b := by
  induction l with
  | nil =>
    intro a
    simp only [List.nil_append, Tiles]
    constructor
    · rintro ⟨h1, h2, h3⟩; exact ⟨h1.symm, by omega, h3⟩
    · rintro ⟨h1, h2, h3⟩; exact ⟨h1.symm, by omega, h3⟩
  | cons q l ih =>
    intro a
    simp only [List.cons_append, Tiles, ih]
    constructor
    · rintro ⟨h1, h2, h3, h4⟩; exact ⟨⟨h1, h2, h3⟩, h4⟩
    · rintro ⟨⟨h1, h2, h3⟩, h4⟩; exact ⟨h1, h2, h3, h4⟩

theorem entireLoop_spec (bits : UInt8) (split : List UInt8) (ms : Bytes) (gs : List Bytes) :
    ∀ (lastEnd : Nat) (last : Option UInt8) (acc : List ((Nat × Nat) × UInt8)),
    ms.drop lastEnd = gs.flatten → lastEnd ≤ ms.length → (∀ g ∈ gs, g ≠ []) → (∀ g ∈ gs, ∀ x ∈ g, ∀ y ∈ g, x = y) →
    Tiles 0 acc.reverse lastEnd →
    (∀ r ∈ acc, ∀ x, r.1.1 ≤ x → x < r.1.2 → ms.getD x 0 &&& bits = r.2) →
    last = acc.head?.map (·.2) →
    (∀ l1 q r l2, acc = l1 ++ q :: r :: l2 → r.2 ≠ q.2 ∨ (ms.getD q.1.1 0 &&& 0x40 ≠ 0 ∧ q.2 ∈ split)) →
    Tiles 0 (entireLoop bits split ms gs lastEnd last acc) ms.length ∧
    (∀ r ∈ entireLoop bits split ms gs lastEnd last acc, ∀ x, r.1.1 ≤ x → x < r.1.2 → ms.getD x 0 &&& bits = r.2) ∧
    (∀ l1 r q l2, entireLoop bits split ms gs lastEnd last acc = l1 ++ r :: q :: l2 →
      r.2 ≠ q.2 ∨ (ms.getD q.1.1 0 &&& 0x40 ≠ 0 ∧ q.2 ∈ split)) := by
  induction gs with
  | nil =>
    intro lastEnd last acc hd hle _ _ ht hu _ hadj
    unfold entireLoop
    have : lastEnd = ms.length := by
      have := congrArg List.length hd
      simp at this
      omega
    subst this
    refine ⟨ht, fun r hr => hu r (List.mem_reverse.mp hr), fun l1 r q l2 he => ?_⟩
    refine hadj l2.reverse q r l1.reverse ?_
    rw [← List.reverse_inj, he]
    simp
  | cons g gs ih =>
    intro lastEnd last acc hd hle hne heq ht hu hlast hadj
    unfold entireLoop
    simp only
    have hg := hne g List.mem_cons_self
    have hgl : 0 < g.length := List.length_pos_iff.mpr hg
    rw [List.flatten_cons] at hd
    have hlen : lastEnd + g.length ≤ ms.length := by
      have := congrArg List.length hd
      simp only [List.length_drop, List.length_append] at this
      omega
    have hd' : ms.drop (lastEnd + g.length) = gs.flatten := by
      rw [← List.drop_drop, hd, List.drop_left]
    have hmem : ∀ x, lastEnd ≤ x → x < lastEnd + g.length → ms.getD x 0 ∈ g := by
      intro x h1 h2
      have : ms[x]? = g[x - lastEnd]? := by
        have h3 : (ms.drop lastEnd)[x - lastEnd]? = ms[x]? := by
          rw [List.getElem?_drop]; congr 1; omega
        rw [← h3, hd, List.getElem?_append_left (by omega)]
      rw [List.getD_eq_getElem?_getD, this, List.getElem?_eq_getElem (by omega)]
      exact List.getElem_mem _
    have hconst : ∀ x, lastEnd ≤ x → x < lastEnd + g.length → ms.getD x 0 &&& bits = ms.getD lastEnd 0 &&& bits := by
      intro x h1 h2
      rw [heq g List.mem_cons_self _ (hmem x h1 h2) _ (hmem lastEnd (Nat.le_refl _) (by omega))]
    generalize hm : ms.getD lastEnd 0 &&& bits = m at hconst
    -- pushing a new range
    have push : ∀ (hnew : ∀ r l2, acc = r :: l2 → r.2 ≠ m ∨ (ms.getD lastEnd 0 &&& 0x40 ≠ 0 ∧ m ∈ split)),
        (∀ r, r ∈ ((lastEnd, lastEnd + g.length), m) :: acc → ∀ x, r.1.1 ≤ x → x < r.1.2 → ms.getD x 0 &&& bits = r.2) ∧
        Tiles 0 (((lastEnd, lastEnd + g.length), m) :: acc).reverse (lastEnd + g.length) ∧
        (∀ l1 q r l2, ((lastEnd, lastEnd + g.length), m) :: acc = l1 ++ q :: r :: l2 →
          r.2 ≠ q.2 ∨ (ms.getD q.1.1 0 &&& 0x40 ≠ 0 ∧ q.2 ∈ split)) := by
      intro hnew
      refine ⟨fun r hr x h1 h2 => ?_, ?_, fun l1 q r l2 he => ?_⟩
      · rcases List.mem_cons.mp hr with rfl | hr
        · exact hconst x h1 h2
        · exact hu r hr x h1 h2
      · rw [List.reverse_cons, tiles_snoc]
        exact ⟨ht, by simp only; omega, rfl⟩
      · cases l1 with
        | nil =>
          rw [List.nil_append] at he
          injection he with he1 he2
          subst he1
          exact hnew r l2 he2
        | cons z l1 =>
          rw [List.cons_append] at he
          injection he with he1 he2
          exact hadj l1 q r l2 he2
    have step : ∀ acc', (∀ r, r ∈ acc' → ∀ x, r.1.1 ≤ x → x < r.1.2 → ms.getD x 0 &&& bits = r.2) → Tiles 0 acc'.reverse (lastEnd + g.length) →
        (∀ l1 q r l2, acc' = l1 ++ q :: r :: l2 → r.2 ≠ q.2 ∨ (ms.getD q.1.1 0 &&& 0x40 ≠ 0 ∧ q.2 ∈ split)) → acc'.head?.map (·.2) = some m →
        _ := fun acc' h1 h2 h3 h4 => ih (lastEnd + g.length) (some m) acc' hd' hlen (fun g hg => hne g (List.mem_cons_of_mem _ hg))
          (fun g hg => heq g (List.mem_cons_of_mem _ hg)) h2 h1 h4.symm h3
    by_cases hc : ms.getD lastEnd 0 &&& 0x40 ≠ 0 ∧ split.contains m = true
    · rw [if_pos hc]
      obtain ⟨p1, p2, p3⟩ := push fun r l2 _ => Or.inr ⟨hc.1, by simpa using hc.2⟩
      exact step _ p1 p2 p3 rfl
    · rw [if_neg hc]
      match acc, hlast, ht, hu, hadj, push with
      | [], hlast, ht, hu, hadj, push =>
        obtain ⟨p1, p2, p3⟩ := push fun r l2 h => by cases h
        exact step _ p1 p2 p3 rfl
      | ((p, q), s) :: acc', hlast, ht, hu, hadj, push =>
        simp only
        by_cases hl : last = some m
        · rw [if_pos hl]
          have hs : s = m := by rw [hl] at hlast; simpa using hlast.symm
          subst hs
          rw [List.reverse_cons, tiles_snoc] at ht
          obtain ⟨t1, t2, t3⟩ := ht
          simp only at t1 t2 t3
          refine step _ (fun r hr x h1 h2 => ?_) ?_ (fun l1 q' r l2 he => ?_) rfl
          · rcases List.mem_cons.mp hr with rfl | hr
            · by_cases hx : x < q
              · exact hu _ List.mem_cons_self x h1 hx
              · exact hconst x (by omega) h2
            · exact hu r (List.mem_cons_of_mem _ hr) x h1 h2
          · rw [List.reverse_cons, tiles_snoc]
            exact ⟨t1, by simp only; omega, rfl⟩
          · cases l1 with
            | nil =>
              rw [List.nil_append] at he
              injection he with he1 he2
              subst he1
              exact hadj [] ((p, q), s) r l2 (by rw [he2]; rfl)
            | cons z l1 =>
              rw [List.cons_append] at he
              injection he with he1 he2
              exact hadj (((p, q), s) :: l1) q' r l2 (by rw [he2]; rfl)
        · rw [if_neg hl]
          obtain ⟨p1, p2, p3⟩ := push fun r l2 h => by
            injection h with h1 h2
            subst h1
            left
            intro he
            apply hl
            rw [hlast]
            simpa using he
          exact step _ p1 p2 p3 rfl

/-- the style of base position `p` as `get_entire_style_ranges` sees it: the style byte, with the comment bit if there is
a comment, restricted to the requested bits -/
def seenStyle (style : Bytes) (com : Comments) (k : Kind) (p : Nat) : UInt8 :=
  (style.getD p 0 ||| if (dictGet com p).isSome then 0x40 else 0) &&& styleBits k

theorem and_or_and (s c b : UInt8) : ((s &&& b) ||| c) &&& b = (s ||| c) &&& b := by
  apply UInt8.eq_of_testBit
  intro i _
  simp only [UInt8.toNat_and, UInt8.toNat_or, Nat.testBit_and, Nat.testBit_or]
  cases s.toNat.testBit i <;> cases c.toNat.testBit i <;> cases b.toNat.testBit i <;> rfl

/-- **C27.** The ranges follow each other from 0 to the length of the segment without gap, every byte of a range has the
range's style, and two neighbouring ranges have different styles unless the second begins with a comment byte whose style
is in the split set. -/
theorem C27_partition {v : SegView} (h : v.Wf) {style : Bytes} (hs : style.length = v.baseLen) {com : Comments}
    (hcom : ∀ q ∈ com, q.1 < v.baseLen) (split : List UInt8) (k : Kind) (hl : 0 < v.len) :
    ∃ R, entireStyleRanges v style com split k = .ok (some R) ∧ Tiles 0 R v.len ∧
      (∀ r ∈ R, ∀ i p, r.1.1 ≤ i → i < r.1.2 → v.positions[i]? = some p → r.2 = seenStyle style com k p) ∧
      (∀ l1 r q l2, R = l1 ++ r :: q :: l2 → r.2 ≠ q.2 ∨
        (q.2 ∈ split ∧ ∃ p, v.positions[q.1.1]? = some p ∧ ((dictGet com p).isSome ∨ (style.getD p 0 &&& styleBits k) &&& 0x40 ≠ 0))) := by
  unfold entireStyleRanges commentLocations
  simp only
  rw [if_pos (List.all_eq_true.mpr fun q hq => decide_eq_true (by rw [List.length_map, hs]; exact hcom q hq))]
  simp only
  have hml : (modBase (style.map (· &&& styleBits k)) (com.map (·.1)) (· ||| 0x40)).length = v.baseLen := by
    rw [length_modBase, List.length_map, hs]
  generalize hms : v.read (modBase (style.map (· &&& styleBits k)) (com.map (·.1)) (· ||| 0x40)) = ms
  have hlen : ms.length = v.len := by rw [← hms, SegView.length_read h hml]
  have hget : ∀ i p, v.positions[i]? = some p → ms.getD i 0 =
      (style.getD p 0 &&& styleBits k) ||| if (dictGet com p).isSome then 0x40 else 0 := by
    intro i p hp
    have hlt : p < style.length := by rw [hs]; exact h.pos_lt p (List.mem_of_getElem? hp)
    rw [List.getD_eq_getElem?_getD, ← hms, SegView.read_get h hml, hp, Option.bind_some, getElem?_modBase, List.getElem?_map,
      List.getElem?_eq_getElem hlt, List.getD_eq_getElem?_getD, List.getElem?_eq_getElem hlt]
    have hiff : p ∈ com.map (·.1) ↔ (dictGet com p).isSome = true := by
      rw [← Decidable.not_iff_not, ← dictGet_none]
      cases dictGet com p <;> simp
    by_cases hc : p ∈ com.map (·.1)
    · rw [if_pos hc, if_pos (hiff.mp hc)]; rfl
    · rw [if_neg hc, if_neg (fun x => hc (hiff.mpr x)), UInt8.or_zero]; rfl
  obtain ⟨g1, g2, g3⟩ := splitBetween_eq_spec ms
  have hne : ms ≠ [] := by intro he; rw [he] at hlen; simp at hlen; omega
  rw [if_neg (by intro he; rw [he] at g1; exact hne g1.symm)]
  obtain ⟨e1, e2, e3⟩ := entireLoop_spec (styleBits k) split ms _ 0 none [] (by rw [g1]; rfl) (Nat.zero_le _) (g2 hne) g3 rfl
    (fun r hr => (nomatch hr)) rfl (fun l1 q r l2 he => by cases l1 <;> cases he)
  refine ⟨_, rfl, by rw [← hlen]; exact e1, fun r hr i p h1 h2 hp => ?_, fun l1 r q l2 he => ?_⟩
  · rw [← e2 r hr i h1 h2, hget i p hp, and_or_and]; rfl
  · rcases e3 l1 r q l2 he with h1 | ⟨h1, h2⟩
    · exact Or.inl h1
    · refine Or.inr ⟨h2, ?_⟩
      by_cases hq : q.1.1 < v.len
      · obtain ⟨p, hp, _⟩ := SegView.rawIndex_eq hq
        refine ⟨p, hp, ?_⟩
        rw [hget _ p hp] at h1
        cases hsome : (dictGet com p).isSome with
        | true => exact Or.inl rfl
        | false =>
          right
          rw [hsome] at h1
          simpa using h1
      · rw [List.getD_eq_getElem?_getD, List.getElem?_eq_none (by omega)] at h1
        exact absurd (by decide) h1

/-- the degenerate cases: an empty segment gives `None`; a comment outside the base array makes the call raise -/
theorem C27_degenerate {v : SegView} (h : v.Wf) {style : Bytes} (hs : style.length = v.baseLen) (com : Comments) (split : List UInt8) (k : Kind) :
    ((∀ q ∈ com, q.1 < v.baseLen) → v.len = 0 → entireStyleRanges v style com split k = .ok none) ∧
    ((∃ q ∈ com, v.baseLen ≤ q.1) → entireStyleRanges v style com split k = .error .indexError) := by
  constructor
  · intro hcom hl
    unfold entireStyleRanges commentLocations
    simp only
    rw [if_pos (List.all_eq_true.mpr fun q hq => decide_eq_true (by rw [List.length_map, hs]; exact hcom q hq))]
    simp only
    have hml : (modBase (style.map (· &&& styleBits k)) (com.map (·.1)) (· ||| 0x40)).length = v.baseLen := by
      rw [length_modBase, List.length_map, hs]
    have hlen := SegView.length_read h hml
    rw [hl] at hlen
    rw [List.length_eq_zero_iff.mp hlen]
    rfl
  · rintro ⟨q, hq, hle⟩
    unfold entireStyleRanges commentLocations
    simp only
    rw [if_neg]
    intro hall
    have := of_decide_eq_true (List.all_eq_true.mp hall q hq)
    rw [List.length_map, hs] at this
    omega

example : entireStyleRanges (.part 9 1 7) [0, 0, 0, 1, 1, 0x41, 1, 0x10, 0] [(2, "a"), (6, "b")] [0x41] { comment := true, data := true } =
    .ok (some [((0, 1), 0), ((1, 2), 0x40), ((2, 4), 1), ((4, 6), 0x41), ((6, 7), 0)]) := by decide

/-! ### C28 -/

theorem mem_separated_iff {l : List (Nat × Nat)} (h : Separated l) (i : Nat) : InRanges l i ↔ ∃ r ∈ l, r.1 ≤ i ∧ i < r.2 := by
  unfold InRanges
  constructor
  · rintro ⟨r, hr, h1, h2⟩
    have := h.pos r hr
    exact ⟨r, hr, by omega, by omega⟩
  · rintro ⟨r, hr, h1, h2⟩
    have := h.pos r hr
    exact ⟨r, hr, by omega, by omega⟩

/-- putting style `k'` on the runs of style `k` of another segment of the same length -/
theorem copy_runs {v w : SegView} (hv : v.Wf) (hw : w.Wf) (hn : w.positions.Nodup) {style a : Bytes}
    (hs : style.length = v.baseLen) (ha : a.length = w.baseLen) (k k' : Kind) :
    (setStyleRanges w a (getStyleRanges v style k) k').length = w.baseLen ∧
    (∀ (i p p' : Nat) (s t : UInt8), v.positions[i]? = some p → style[p]? = some s → w.positions[i]? = some p' → a[p']? = some t →
      (setStyleRanges w a (getStyleRanges v style k) k')[p']? = some (t ||| if s &&& styleBits k = styleBits k then styleBits k' else 0)) ∧
    (∀ p', p' ∉ w.positions → (setStyleRanges w a (getStyleRanges v style k) k')[p']? = a[p']?) := by
  obtain ⟨q1, q2⟩ := C25_query hv hs k
  obtain ⟨s1, s2⟩ := setStyleRanges_get hw ha (getStyleRanges v style k) k'
  refine ⟨s1.trans ha, fun i p p' s t hp hst hp' hat => ?_, fun p' hp' => ?_⟩
  · have hcov : w.Covers (getStyleRanges v style k) p' ↔ s &&& styleBits k = styleBits k := by
      constructor
      · rintro ⟨j, hj, hjp⟩
        obtain ⟨c1, c2⟩ := List.getElem?_eq_some_iff.mp hjp
        obtain ⟨c3, c4⟩ := List.getElem?_eq_some_iff.mp hp'
        have : j = i := by
          rcases Nat.lt_trichotomy i j with hlt | heq | hlt
          · exact absurd (c4.trans c2.symm) (List.pairwise_iff_getElem.mp hn i j c3 c1 hlt)
          · exact heq.symm
          · exact absurd (c2.trans c4.symm) (List.pairwise_iff_getElem.mp hn j i c1 c3 hlt)
        subst this
        obtain ⟨p2, s2, e1, e2, e3⟩ := (q2 j).mpr ((mem_separated_iff q1 j).mp hj)
        rw [hp] at e1; injection e1 with e1; subst e1
        rw [hst] at e2; injection e2 with e2; subst e2
        exact e3
      · intro he
        exact ⟨i, (mem_separated_iff q1 i).mpr ((q2 i).mp ⟨p, s, hp, hst, he⟩), hp'⟩
    rw [s2 p', hat]
    by_cases hc : s &&& styleBits k = styleBits k
    · rw [if_pos (hcov.mpr hc), if_pos hc]; rfl
    · rw [if_neg (fun x => hc (hcov.mp x)), if_neg hc, UInt8.or_zero]
  · rw [s2 p', if_neg]
    rintro ⟨j, _, hj⟩
    exact hp' (List.mem_of_getElem? hj)

theorem find_user (f : Nat → List (Nat × Nat)) (L : List Nat) (i : Nat) :
    (((L.map fun j => (j, f j)).filter fun p => !p.2.isEmpty).find? (·.1 == i)) =
      if i ∈ L ∧ f i ≠ [] then some (i, f i) else none := by
  induction L with
  | nil => simp
  | cons j L ih =>
    rw [List.map_cons, List.filter_cons]
    by_cases hj : f j = []
    · simp only [hj, List.isEmpty_nil, Bool.not_true, Bool.false_eq_true, if_false, ih]
      by_cases hi : i = j
      · subst hi; simp [hj]
      · simp [hi]
    · have : (f j).isEmpty = false := by cases hf : f j with | nil => exact absurd hf hj | cons => rfl
      simp only [this, Bool.not_false, if_true, List.find?_cons]
      by_cases hi : j = i
      · subst hi; simp [hj]
      · rw [show (j == i) = false by simpa using hi]
        simp only [ih, List.mem_cons]
        by_cases h1 : i ∈ L
        · simp [h1]
        · simp [h1, show ¬ i = j from fun h => hi h.symm]

/-- restoring the user styles in order -/
def restoreUser (w : SegView) (f : Nat → List (Nat × Nat)) (a : Bytes) : Bytes :=
  (List.range' 1 6).foldl (fun s i => setStyleRanges w s (f i) { user := i }) a

theorem restoreUser_eq (w : SegView) (f : Nat → List (Nat × Nat)) (a : Bytes) :
    (List.range' 1 6).foldl (fun s i =>
      match (((List.range' 1 6).map fun i => (i, f i)).filter fun p => !p.2.isEmpty).find? (·.1 == i) with
      | some p => setStyleRanges w s p.2 { user := i }
      | none => s) a = restoreUser w f a := by
  unfold restoreUser
  have : ∀ (L : List Nat) (a : Bytes), (∀ i ∈ L, i ∈ List.range' 1 6) → L.foldl (fun s i =>
      match (((List.range' 1 6).map fun i => (i, f i)).filter fun p => !p.2.isEmpty).find? (·.1 == i) with
      | some p => setStyleRanges w s p.2 { user := i }
      | none => s) a = L.foldl (fun s i => setStyleRanges w s (f i) { user := i }) a := by
    intro L
    induction L with
    | nil => intro a _; rfl
    | cons i L ih =>
      intro a hL
      rw [List.foldl_cons, List.foldl_cons, find_user]
      by_cases hf : f i = []
      · rw [if_neg (fun h => h.2 hf), hf]
        exact ih _ fun j hj => hL j (List.mem_cons_of_mem _ hj)
      · rw [if_pos ⟨hL i List.mem_cons_self, hf⟩]
        exact ih _ fun j hj => hL j (List.mem_cons_of_mem _ hj)
  exact this _ a fun i hi => hi

/-- all the restored bits of one style byte -/
def rebuilt (s : UInt8) : UInt8 :=
  let put (t : UInt8) (k k' : Kind) := t ||| if s &&& styleBits k = styleBits k then styleBits k' else 0
  let t := put 0 { comment := true } { comment := true }
  let t := put t { data := true } { user := 1 }
  [1, 2, 3, 4, 5, 6].foldl (fun t i => put t { user := i } { user := i }) t

theorem rebuilt_eq (s : UInt8) : rebuilt s = s &&& 0x47 := by
  revert s
  apply UInt8.forall_ofNat
  decide +kernel

/-- **C28, styles.** Restoring a session onto a fresh segment of the same length (any segment showing each base position
at most once, no styles yet) gives every byte the comment bit, the data bit and the user bits it had, and no other bits;
nothing outside the segment changes. -/
theorem C28_styles {v w : SegView} (hv : v.Wf) (hw : w.Wf) (hn : w.positions.Nodup) {style : Bytes} (hs : style.length = v.baseLen)
    (com com' : Comments) : ∃ b c, restoreSession w (List.replicate w.baseLen 0) com' (serializeSession v style com) = (b, c) ∧
      b.length = w.baseLen ∧
      (∀ (i p p' : Nat) (s : UInt8), v.positions[i]? = some p → style[p]? = some s → w.positions[i]? = some p' → b[p']? = some (s &&& 0x47)) ∧
      (∀ p' : Nat, p' < w.baseLen → p' ∉ w.positions → b[p']? = some 0) := by
  refine ⟨restoreUser w (fun i => getStyleRanges v style { user := i }) (setStyleRanges w (setStyleRanges w (List.replicate w.baseLen 0)
    (getStyleRanges v style { comment := true }) { comment := true }) (getStyleRanges v style { data := true }) { user := 1 }), _,
    Prod.ext (restoreUser_eq w (fun i => getStyleRanges v style { user := i }) _) rfl, ?_⟩
  have h0 : (List.replicate w.baseLen (0 : UInt8)).length = w.baseLen := List.length_replicate
  obtain ⟨a1, a2, a3⟩ := copy_runs hv hw hn hs h0 { comment := true } { comment := true }
  obtain ⟨b1, b2, b3⟩ := copy_runs hv hw hn hs a1 { data := true } { user := 1 }
  generalize setStyleRanges w (List.replicate w.baseLen 0) (getStyleRanges v style { comment := true }) { comment := true } = x1 at *
  generalize setStyleRanges w x1 (getStyleRanges v style { data := true }) { user := 1 } = x2 at *
  have key : ∀ (L : List Nat) (a : Bytes), a.length = w.baseLen →
      (L.foldl (fun s i => setStyleRanges w s (getStyleRanges v style { user := i }) { user := i }) a).length = w.baseLen ∧
      (∀ (i p p' : Nat) (s t : UInt8), v.positions[i]? = some p → style[p]? = some s → w.positions[i]? = some p' → a[p']? = some t →
        (L.foldl (fun s i => setStyleRanges w s (getStyleRanges v style { user := i }) { user := i }) a)[p']? =
          some (L.foldl (fun t i => t ||| if s &&& styleBits { user := i } = styleBits { user := i } then styleBits { user := i } else 0) t)) ∧
      (∀ p', p' ∉ w.positions → (L.foldl (fun s i => setStyleRanges w s (getStyleRanges v style { user := i }) { user := i }) a)[p']? = a[p']?) := by
    intro L
    induction L with
    | nil => intro a ha; exact ⟨ha, fun i p p' s t _ _ _ ht => ht, fun p' _ => rfl⟩
    | cons u L ih =>
      intro a ha
      obtain ⟨c1, c2, c3⟩ := copy_runs hv hw hn hs ha { user := u } { user := u }
      obtain ⟨d1, d2, d3⟩ := ih _ c1
      exact ⟨d1, fun i p p' s t hp hst hp' ht => d2 i p p' s _ hp hst hp' (c2 i p p' s t hp hst hp' ht), fun p' hp' => (d3 p' hp').trans (c3 p' hp')⟩
  obtain ⟨k1, k2, k3⟩ := key (List.range' 1 6) x2 b1
  refine ⟨k1, fun i p p' s hp hst hp' => ?_, fun p' hlt hp' => ?_⟩
  · have hlt := hw.pos_lt p' (List.mem_of_getElem? hp')
    have e0 : (List.replicate w.baseLen (0 : UInt8))[p']? = some 0 := by rw [List.getElem?_replicate, if_pos hlt]
    have e1 := a2 i p p' s 0 hp hst hp' e0
    have e2 := b2 i p p' s _ hp hst hp' e1
    have e3 := k2 i p p' s _ hp hst hp' e2
    rw [← rebuilt_eq s]
    exact e3
  · show (restoreUser w _ x2)[p']? = some 0
    rw [show restoreUser w (fun i => getStyleRanges v style { user := i }) x2 = _ from rfl, restoreUser, k3 p' hp', b3 p' hp', a3 p' hp',
      List.getElem?_replicate, if_pos hlt]

/-- **C28, comments.** Every comment comes back, with its text, under the same base position, and no other comment does. -/
theorem C28_comments (v w : SegView) (style a : Bytes) (com : Comments) (hn : (com.map (·.1)).Nodup) (p : Nat) :
    dictGet (restoreSession w a [] (serializeSession v style com)).2 p = dictGet com p := by
  obtain ⟨s1, s2, s3⟩ := sortedComments_spec com hn
  show dictGet ((sortedComments com).foldl (fun d p => dictSet d p.1 p.2) []) p = _
  rw [dictGet_foldl_set _ _ _ s1, dictGet_nil, Option.or_none, s3]

example : restoreSession (.whole 6) (List.replicate 6 0) [] (serializeSession (.whole 6) [0xff, 0x40, 3, 0x10, 6, 0] [(4, "x"), (1, "y")]) =
    ([0x47, 0x40, 3, 0, 6, 0], [(1, "y"), (4, "x")]) := by decide

/-! ### C29 -/

/-- the base positions that the ranges show -/
def SegView.shown (v : SegView) (ranges : List (Nat × Nat)) (p : Nat) : Prop := ∃ r ∈ ranges, p ∈ slice v.positions r.1 r.2

/-- the text of a comment; none and the empty text look the same to `get_comment` -/
def textAt (com : Comments) (p : Nat) : String := (dictGet com p).getD ""

theorem restoreItems_text (com0 : Comments) (ps : List Nat) : ∀ (d : Comments) (x : Nat),
    textAt (restoreItems d (ps.map fun p => (p, dictGet com0 p))) x = if x ∈ ps then textAt com0 x else textAt d x := by
  induction ps with
  | nil => intro d x; simp [restoreItems]
  | cons p ps ih =>
    intro d x
    have hstep : restoreItems d ((p :: ps).map fun p => (p, dictGet com0 p)) =
        restoreItems (match dictGet com0 p with
          | some t => if t = "" then dictDel d p else dictSet d p t
          | none => dictDel d p) (ps.map fun p => (p, dictGet com0 p)) := rfl
    rw [hstep, ih]
    by_cases h1 : x ∈ ps
    · simp [h1]
    · rw [if_neg h1]
      by_cases h2 : x = p
      · subst h2
        rw [if_pos List.mem_cons_self]
        unfold textAt
        cases hd : dictGet com0 x with
        | none => simp only [dictGet_del, if_true]
        | some t =>
          simp only
          by_cases ht : t = ""
          · simp [ht, dictGet_del]
          · simp [ht, dictGet_set]
      · rw [if_neg (by simp [h1, h2])]
        unfold textAt
        cases hd : dictGet com0 p with
        | none => simp only [dictGet_del, h2, if_false]
        | some t =>
          simp only
          by_cases ht : t = ""
          · simp [ht, dictGet_del, h2]
          · simp [ht, dictGet_set, h2]

theorem SegView.setRange_spec {v : SegView} {a vals : Bytes} {s e : Nat} (hl : vals.length = (slice v.positions s e).length) :
    v.setRange a s e vals = .ok (setAll a (slice v.positions s e) vals) := by
  unfold SegView.setRange
  cases v <;> exact if_pos hl

open Classical in
/-- what restoring does to any state -/
theorem restore_spec {v : SegView} (h : v.Wf) {style0 : Bytes} (hs0 : style0.length = v.baseLen) (com0 : Comments) (ranges : List (Nat × Nat)) :
    (∀ r ∈ ranges, r.2 ≤ v.len) → ∃ rd, getRestoreData v style0 com0 ranges = .ok rd ∧
    ∀ (style : Bytes) (com : Comments), style.length = v.baseLen → ∃ style' com', restoreComments v rd style com = .ok (style', com') ∧
      (∀ p, style'[p]? = if v.shown ranges p then style0[p]? else style[p]?) ∧
      (∀ p, textAt com' p = if v.shown ranges p then textAt com0 p else textAt com p) := by
  induction ranges with
  | nil =>
    intro _
    refine ⟨[], rfl, fun style com _ => ⟨style, com, rfl, fun p => ?_, fun p => ?_⟩⟩ <;>
      rw [if_neg] <;> rintro ⟨r, hr, _⟩ <;> cases hr
  | cons r ranges ih =>
    intro hr
    obtain ⟨rd, h1, h2⟩ := ih fun q hq => hr q (List.mem_cons_of_mem _ hq)
    have hlen : (slice (v.read style0) r.1 r.2).length = (slice v.positions r.1 r.2).length := by
      rw [length_slice, length_slice, SegView.length_read h hs0, v.length_positions]
    refine ⟨⟨r.1, r.2, slice (v.read style0) r.1 r.2, (slice v.positions r.1 r.2).map fun p => (p, dictGet com0 p)⟩ :: rd, ?_, ?_⟩
    · unfold getRestoreData
      rw [rawIndexes_eq (hr r List.mem_cons_self), h1]
    · intro style com hst
      obtain ⟨style', com', q1, q2, q3⟩ := h2 (setAll style (slice v.positions r.1 r.2) (slice (v.read style0) r.1 r.2))
        (restoreItems com ((slice v.positions r.1 r.2).map fun p => (p, dictGet com0 p))) (by rw [length_setAll]; exact hst)
      refine ⟨style', com', ?_, fun p => ?_, fun p => ?_⟩
      · unfold restoreComments
        simp only
        rw [SegView.setRange_spec hlen]
        exact q1
      · rw [q2]
        by_cases hc : v.shown ranges p
        · rw [if_pos hc, if_pos]
          obtain ⟨q, hq, hp⟩ := hc
          exact ⟨q, List.mem_cons_of_mem _ hq, hp⟩
        · rw [if_neg hc]
          by_cases hm : p ∈ slice v.positions r.1 r.2
          · rw [if_pos ⟨r, List.mem_cons_self, hm⟩]
            obtain ⟨i, hi, hlast⟩ := exists_last hm
            have hp : v.positions[r.1 + i]? = some p := by
              rw [getElem?_slice] at hi
              split at hi
              · exact hi
              · cases hi
            have hlt : p < style.length := by rw [hst]; exact h.pos_lt p (List.mem_of_getElem? hp)
            rw [setAll_get_last _ _ _ hlen hi hlast hlt, getElem?_slice, if_pos, SegView.read_get h hs0, hp]
            · rfl
            · rw [getElem?_slice] at hi
              split at hi
              · assumption
              · cases hi
          · rw [setAll_get_not_mem _ _ _ hm, if_neg]
            rintro ⟨q, hq, hp⟩
            rcases List.mem_cons.mp hq with rfl | hq
            · exact hm hp
            · exact hc ⟨q, hq, hp⟩
      · rw [q3]
        by_cases hc : v.shown ranges p
        · rw [if_pos hc, if_pos]
          obtain ⟨q, hq, hp⟩ := hc
          exact ⟨q, List.mem_cons_of_mem _ hq, hp⟩
        · rw [if_neg hc, restoreItems_text]
          by_cases hm : p ∈ slice v.positions r.1 r.2
          · rw [if_pos hm, if_pos ⟨r, List.mem_cons_self, hm⟩]
          · rw [if_neg hm, if_neg]
            rintro ⟨q, hq, hp⟩
            rcases List.mem_cons.mp hq with rfl | hq
            · exact hm hp
            · exact hc ⟨q, hq, hp⟩

/-- **C29.** Save the undo data for some ranges; change the styles and comments of positions shown in these ranges in any
way; restore.  Then every style byte and the comment text at every position are as they were. -/
theorem C29_restore {v : SegView} (h : v.Wf) {style : Bytes} (hs : style.length = v.baseLen) (com : Comments) (ranges : List (Nat × Nat))
    (hr : ∀ r ∈ ranges, r.2 ≤ v.len) : ∃ rd, getRestoreData v style com ranges = .ok rd ∧
    ∀ (style' : Bytes) (com' : Comments), style'.length = style.length →
      (∀ p, ¬ v.shown ranges p → style'[p]? = style[p]? ∧ textAt com' p = textAt com p) →
      ∃ com'', restoreComments v rd style' com' = .ok (style, com'') ∧ (∀ p, textAt com'' p = textAt com p) ∧
        ∀ i, getComment v com'' i = getComment v com i := by
  obtain ⟨rd, h1, h2⟩ := restore_spec h hs com ranges hr
  refine ⟨rd, h1, fun style' com' hl hout => ?_⟩
  obtain ⟨s2, c2, q1, q2, q3⟩ := h2 style' com' (hl.trans hs)
  have hst : s2 = style := by
    apply List.ext_getElem?
    intro p
    rw [q2]
    split
    · rfl
    · rename_i hc; exact (hout p hc).1
  subst hst
  have hct : ∀ p, textAt c2 p = textAt com p := by
    intro p
    rw [q3]
    split
    · rfl
    · rename_i hc; exact (hout p hc).2
  refine ⟨c2, q1, hct, fun i => ?_⟩
  unfold getComment
  cases v.rawIndex i with
  | error e => rfl
  | ok p => simp only; exact congrArg Except.ok (hct p)

/-- one call of a comment-editing method -/
inductive CommentEdit
  | set (ranges : List (Nat × Nat)) (text : String)
  | setAt (i : Nat) (text : String)
  | remove (i : Nat)
  | clear (ranges : List (Nat × Nat))

def CommentEdit.run (v : SegView) (st : Bytes × Comments) : CommentEdit → Except Err (Bytes × Comments)
  | .set ranges t => setComment v st.1 st.2 ranges t
  | .setAt i t => (setCommentAt v st.2 i t).map fun c => (st.1, c)
  | .remove i => (removeComment v st.2 i).map fun c => (st.1, c)
  | .clear ranges => clearComment v st.1 st.2 ranges

/-- the edit touches only positions of the segment that lie in the ranges -/
def CommentEdit.Inside (v : SegView) (saved : List (Nat × Nat)) : CommentEdit → Prop
  | .set ranges _ => ∀ r ∈ ranges, r.1 < r.2 ∧ r.2 ≤ v.len ∧ ∃ q ∈ saved, q.1 ≤ r.1 ∧ r.2 ≤ q.2
  | .clear ranges => ∀ r ∈ ranges, r.1 < r.2 ∧ r.2 ≤ v.len ∧ ∃ q ∈ saved, q.1 ≤ r.1 ∧ r.2 ≤ q.2
  | .setAt i _ => i < v.len ∧ ∃ q ∈ saved, q.1 ≤ i ∧ i < q.2
  | .remove i => i < v.len ∧ ∃ q ∈ saved, q.1 ≤ i ∧ i < q.2

/-- a history of edits -/
def runEdits (v : SegView) : List CommentEdit → Bytes × Comments → Except Err (Bytes × Comments)
  | [], st => .ok st
  | e :: es, st => (e.run v st).bind (runEdits v es)

theorem shown_of {v : SegView} {saved : List (Nat × Nat)} {i p : Nat} (hp : v.positions[i]? = some p) (h : ∃ q ∈ saved, q.1 ≤ i ∧ i < q.2) :
    v.shown saved p := by
  obtain ⟨q, hq, h1, h2⟩ := h
  exact ⟨q, hq, mem_slice.mpr ⟨i, h1, h2, hp⟩⟩

theorem covers_shown {v : SegView} {saved ranges : List (Nat × Nat)} {p : Nat}
    (hi : ∀ r ∈ ranges, r.1 < r.2 ∧ r.2 ≤ v.len ∧ ∃ q ∈ saved, q.1 ≤ r.1 ∧ r.2 ≤ q.2) (h : v.Covers ranges p) : v.shown saved p := by
  obtain ⟨i, ⟨r, hr, h1, h2⟩, hp⟩ := h
  obtain ⟨c1, c2, q, hq, c3, c4⟩ := hi r hr
  exact shown_of hp ⟨q, hq, by omega, by omega⟩

theorem edit_inside {v : SegView} (h : v.Wf) {saved : List (Nat × Nat)} {e : CommentEdit} (hi : e.Inside v saved) (st : Bytes × Comments)
    (hl : st.1.length = v.baseLen) : ∃ st', e.run v st = .ok st' ∧ st'.1.length = st.1.length ∧
      ∀ p, ¬ v.shown saved p → st'.1[p]? = st.1[p]? ∧ textAt st'.2 p = textAt st.2 p := by
  obtain ⟨style, com⟩ := st
  cases e with
  | setAt i t =>
    obtain ⟨h1, h2⟩ := hi
    obtain ⟨p, hp, hr⟩ := SegView.rawIndex_eq h1
    refine ⟨(style, dictSet com p t), ?_, rfl, fun q hq => ⟨rfl, ?_⟩⟩
    · simp only [CommentEdit.run, setCommentAt, hr]; rfl
    · have : q ≠ p := fun he => hq (he ▸ shown_of hp h2)
      simp only [textAt, dictGet_set, this, if_false]
  | remove i =>
    obtain ⟨h1, h2⟩ := hi
    obtain ⟨p, hp, hr⟩ := SegView.rawIndex_eq h1
    refine ⟨(style, dictDel com p), ?_, rfl, fun q hq => ⟨rfl, ?_⟩⟩
    · simp only [CommentEdit.run, removeComment, hr]; rfl
    · have : q ≠ p := fun he => hq (he ▸ shown_of hp h2)
      simp only [textAt, dictGet_del, this, if_false]
  | set ranges t =>
    obtain ⟨s1, s2⟩ := setStyleRanges_get h hl ranges { comment := true }
    have key : ∀ (ranges : List (Nat × Nat)) (com : Comments),
        (∀ r ∈ ranges, r.1 < r.2 ∧ r.2 ≤ v.len ∧ ∃ q ∈ saved, q.1 ≤ r.1 ∧ r.2 ≤ q.2) →
        ∃ com', ranges.foldl (fun (acc : Except Err Comments) r => match acc with
          | .error e => .error e
          | .ok d => setCommentAt v d r.1 t) (.ok com) = .ok com' ∧ ∀ p, ¬ v.shown saved p → textAt com' p = textAt com p := by
      intro ranges
      induction ranges with
      | nil => intro com _; exact ⟨com, rfl, fun _ _ => rfl⟩
      | cons r ranges ih =>
        intro com hin
        obtain ⟨c1, c2, q, hq, c3, c4⟩ := hin r List.mem_cons_self
        obtain ⟨p, hp, hr⟩ := SegView.rawIndex_eq (v := v) (show r.1 < v.len by omega)
        obtain ⟨com', e1, e2⟩ := ih (dictSet com p t) fun q hq => hin q (List.mem_cons_of_mem _ hq)
        refine ⟨com', ?_, fun x hx => ?_⟩
        · rw [List.foldl_cons]
          simp only [setCommentAt, hr]
          exact e1
        · rw [e2 x hx]
          have : x ≠ p := fun he => hx (he ▸ shown_of hp ⟨q, hq, by omega, by omega⟩)
          simp only [textAt, dictGet_set, this, if_false]
    obtain ⟨com', e1, e2⟩ := key ranges com hi
    refine ⟨(setStyleRanges v style ranges { comment := true }, com'), ?_, s1, fun p hp => ⟨?_, e2 p hp⟩⟩
    · simp only [CommentEdit.run, setComment]
      split
      · rename_i e' he; exact absurd (he.symm.trans e1) (by simp)
      · rename_i c he
        have := he.symm.trans e1
        injection this with this
        rw [this]
    · simp only
      rw [s2 p, if_neg fun hc => hp (covers_shown hi hc)]
  | clear ranges =>
    obtain ⟨s1, s2⟩ := clearStyleRanges_get h hl ranges { comment := true }
    have key : ∀ (ranges : List (Nat × Nat)) (com : Comments),
        (∀ r ∈ ranges, r.1 < r.2 ∧ r.2 ≤ v.len ∧ ∃ q ∈ saved, q.1 ≤ r.1 ∧ r.2 ≤ q.2) →
        ∃ com', ranges.foldl (fun (acc : Except Err Comments) r => match acc with
          | .error e => .error e
          | .ok d => match rawIndexes v r.1 r.2 with
            | .error e => .error e
            | .ok ps => .ok (ps.foldl dictDel d)) (.ok com) = .ok com' ∧ ∀ p, ¬ v.shown saved p → textAt com' p = textAt com p := by
      intro ranges
      induction ranges with
      | nil => intro com _; exact ⟨com, rfl, fun _ _ => rfl⟩
      | cons r ranges ih =>
        intro com hin
        obtain ⟨c1, c2, q, hq, c3, c4⟩ := hin r List.mem_cons_self
        obtain ⟨com', e1, e2⟩ := ih ((slice v.positions r.1 r.2).foldl dictDel com) fun q hq => hin q (List.mem_cons_of_mem _ hq)
        refine ⟨com', ?_, fun x hx => ?_⟩
        · rw [List.foldl_cons]
          simp only [rawIndexes_eq c2]
          exact e1
        · rw [e2 x hx]
          have : x ∉ slice v.positions r.1 r.2 := by
            intro hm
            obtain ⟨i, d1, d2, d3⟩ := mem_slice.mp hm
            exact hx (shown_of d3 ⟨q, hq, by omega, by omega⟩)
          simp only [textAt, dictGet_foldl_del, this, if_false]
    obtain ⟨com', e1, e2⟩ := key ranges com hi
    refine ⟨(clearStyleRanges v style ranges { comment := true }, com'), ?_, s1, fun p hp => ⟨?_, e2 p hp⟩⟩
    · simp only [CommentEdit.run, clearComment]
      split
      · rename_i e' he; exact absurd (he.symm.trans e1) (by simp)
      · rename_i c he
        have := he.symm.trans e1
        injection this with this
        rw [this]
    · simp only
      rw [s2 p, if_neg fun hc => hp (covers_shown hi hc)]

theorem edits_inside {v : SegView} (h : v.Wf) {saved : List (Nat × Nat)} (es : List CommentEdit) : (∀ e ∈ es, e.Inside v saved) →
    ∀ (st : Bytes × Comments), st.1.length = v.baseLen → ∃ st', runEdits v es st = .ok st' ∧ st'.1.length = st.1.length ∧
      ∀ p, ¬ v.shown saved p → st'.1[p]? = st.1[p]? ∧ textAt st'.2 p = textAt st.2 p := by
  induction es with
  | nil => intro _ st _; exact ⟨st, rfl, rfl, fun _ _ => ⟨rfl, rfl⟩⟩
  | cons e es ih =>
    intro hi st hl
    obtain ⟨st1, a1, a2, a3⟩ := edit_inside h (hi e List.mem_cons_self) st hl
    obtain ⟨st2, b1, b2, b3⟩ := ih (fun e' he => hi e' (List.mem_cons_of_mem _ he)) st1 (a2.trans hl)
    refine ⟨st2, ?_, b2.trans a2, fun p hp => ⟨((b3 p hp).1).trans (a3 p hp).1, ((b3 p hp).2).trans (a3 p hp).2⟩⟩
    unfold runEdits
    rw [a1]
    exact b1

/-- **C29 for histories of calls**: after any sequence of `set_comment`, `set_comment_at`, `remove_comment` and
`clear_comment` calls inside the saved ranges, `restore_comments` brings back all styles and comment texts. -/
theorem C29_history {v : SegView} (h : v.Wf) {style : Bytes} (hs : style.length = v.baseLen) (com : Comments) (saved : List (Nat × Nat))
    (hr : ∀ r ∈ saved, r.2 ≤ v.len) (es : List CommentEdit) (hi : ∀ e ∈ es, e.Inside v saved) :
    ∃ rd st' com'', getRestoreData v style com saved = .ok rd ∧ runEdits v es (style, com) = .ok st' ∧
      restoreComments v rd st'.1 st'.2 = .ok (style, com'') ∧ ∀ i, getComment v com'' i = getComment v com i := by
  obtain ⟨rd, h1, h2⟩ := C29_restore h hs com saved hr
  obtain ⟨st', e1, e2, e3⟩ := edits_inside h es hi (style, com) hs
  obtain ⟨c2, f1, _, f3⟩ := h2 st'.1 st'.2 e2 e3
  exact ⟨rd, st', c2, h1, e1, f1, f3⟩

example : (do
    let rd ← getRestoreData (.part 8 2 6) [1, 2, 3, 0x43, 5, 6, 7, 8] [(3, "old"), (0, "other")] [(0, 4)]
    let st ← runEdits (.part 8 2 6) [.set [(2, 4)] "new", .clear [(0, 2)], .setAt 0 "z"] ([1, 2, 3, 0x43, 5, 6, 7, 8], [(3, "old"), (0, "other")])
    let back ← restoreComments (.part 8 2 6) rd st.1 st.2
    return (st, back)) =
    .ok (([1, 2, 3, 3, 0x45, 0x46, 7, 8], [(0, "other"), (4, "new"), (2, "z")]), ([1, 2, 3, 0x43, 5, 6, 7, 8], [(0, "other"), (3, "old")])) := by
  decide

end Atr
