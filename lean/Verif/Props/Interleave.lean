import Verif.Lemmas.Segments
/-!
# C30: interleaving
-/
namespace Atr

/-- not an `OrderWrapper` -/
def SegView.Plain : SegView → Prop
  | .order _ _ => False
  | _ => True

theorem SegView.indexesFromBase_plain {v : SegView} (h : v.Plain) : v.indexesFromBase = .ok v.positions := by
  cases v with
  | whole n => simp [indexesFromBase, positions, List.range_eq_range']
  | part n off len => rfl
  | order n idx => exact h.elim

/-- storing at distinct positions -/
theorem setAll_map_get {α} (out : List α) (c : Nat) (g : Nat → Nat) (vals : List α) (hl : vals.length = c)
    (hinj : ∀ s t, s < c → t < c → g s = g t → s = t) {t : Nat} (ht : t < c) (hg : g t < out.length) :
    (setAll out ((List.range c).map g) vals)[g t]? = vals[t]? := by
  refine setAll_get_last _ _ _ (by simp [hl]) (by simp [ht]) ?_ hg
  intro j hj hc
  rw [List.getElem?_map] at hc
  by_cases hjc : j < c
  · rw [List.getElem?_range hjc] at hc
    injection hc with hc
    have := hinj j t hjc ht hc
    omega
  · rw [List.getElem?_eq_none (by simp; omega)] at hc; cases hc

/-- what position `k` of the result has to be -/
def interleaveTarget (vs : List SegView) (n factor k : Nat) : Option Nat :=
  vs[k % factor / n]?.bind fun v => v.positions[k / factor * n + k % factor % n]?

/-- everything whose remainder is below `start` is in place -/
def InterleaveInv (vs : List SegView) (n factor total start : Nat) (out : List Nat) : Prop :=
  out.length = total ∧ ∀ k, k < total → k % factor < start → out[k]? = interleaveTarget vs n factor k

theorem step_inv {vs : List SegView} {n q j i : Nat} {out : List Nat} {v : SegView} (hn : 0 < n) (hq : 0 < q) (hi : i < n)
    (hj : vs[j]? = some v) (hv : n * q ≤ v.len)
    (hinv : InterleaveInv vs n (n * vs.length) (n * q * vs.length) (j * n + i) out) :
    ∃ out', interleaveStore out (j * n + i) (n * vs.length) v.positions i (n * q) n = .ok out' ∧
      InterleaveInv vs n (n * vs.length) (n * q * vs.length) (j * n + i + 1) out' := by
  obtain ⟨hlen, hk⟩ := hinv
  have hjm : j < vs.length := (List.getElem?_eq_some_iff.mp hj).1
  generalize hm : vs.length = m at *
  have hm0 : 0 < m := by omega
  have hf0 : 0 < n * m := Nat.mul_pos hn hm0
  have hstart : j * n + i < n * m := by
    have : (j + 1) * n ≤ m * n := Nat.mul_le_mul_right n hjm
    rw [Nat.add_mul, Nat.one_mul] at this
    rw [Nat.mul_comm n m]
    omega
  -- both sides have `q` elements
  have hc1 : (out.length - (j * n + i) + n * m - 1) / (n * m) = q := by
    rw [hlen, show n * q * m = q * (n * m) by rw [Nat.mul_comm n q, Nat.mul_assoc]]
    apply Nat.div_eq_of_lt_le
    · have := Nat.mul_le_mul_right (n * m) hq
      rw [Nat.one_mul] at this
      omega
    · rw [Nat.succ_mul]
      have := Nat.mul_le_mul_right (n * m) hq
      rw [Nat.one_mul] at this
      omega
  have hc2 : (min (n * q) v.positions.length - i + n - 1) / n = q := by
    rw [v.length_positions, Nat.min_eq_left hv, Nat.mul_comm n q]
    apply Nat.div_eq_of_lt_le
    · have := Nat.mul_le_mul_right n hq
      omega
    · rw [Nat.succ_mul]
      have := Nat.mul_le_mul_right n hq
      omega
  refine ⟨setAll out (stepPositions (j * n + i) out.length (n * m)) ((stepPositions i (min (n * q) v.positions.length) n).map
    fun k => v.positions.getD k 0), ?_, ?_, ?_⟩
  · unfold interleaveStore
    simp only
    rw [if_pos]
    simp only [List.length_map, stepPositions, List.length_range]
    rw [hc1, hc2]
  · rw [length_setAll]; exact hlen
  · intro k hkt hks
    unfold stepPositions
    rw [hc1, hc2]
    by_cases hlt : k % (n * m) < j * n + i
    · rw [setAll_get_not_mem]
      · exact hk k hkt hlt
      · intro hmem
        obtain ⟨t, _, rfl⟩ := List.mem_map.mp hmem
        rw [Nat.add_mul_mod_self_right, Nat.mod_eq_of_lt hstart] at hlt
        omega
    · have hkm : k % (n * m) = j * n + i := by omega
      have hdm := Nat.div_add_mod k (n * m)
      have hke : k = (j * n + i) + k / (n * m) * (n * m) := by
        rw [Nat.mul_comm (k / (n * m))]; omega
      have htq : k / (n * m) < q := by
        apply Nat.div_lt_of_lt_mul
        rw [Nat.mul_comm (n * m) q, ← Nat.mul_assoc, Nat.mul_comm q n]; exact hkt
      have hg := setAll_map_get out q (fun t => j * n + i + t * (n * m))
        (((List.range q).map fun t => i + t * n).map fun k => v.positions.getD k 0) (by simp)
        (by intro s t _ _ h
            have : s * (n * m) = t * (n * m) := by omega
            exact Nat.eq_of_mul_eq_mul_right hf0 this) htq (by rw [← hke, hlen]; exact hkt)
      rw [← hke] at hg
      rw [hg]
      unfold interleaveTarget
      have h1 : (j * n + i) / n = j := by
        rw [Nat.add_comm, Nat.add_mul_div_right _ _ hn, Nat.div_eq_of_lt hi, Nat.zero_add]
      have h2 : (j * n + i) % n = i := by
        rw [Nat.add_comm, Nat.add_mul_mod_self_right, Nat.mod_eq_of_lt hi]
      rw [hkm, h1, h2, hj]
      simp only [Option.bind_some, List.getElem?_map, List.getElem?_range htq, Option.map_some]
      have hb : k / (n * m) * n + i < v.positions.length := by
        rw [v.length_positions]
        have : (k / (n * m) + 1) * n ≤ q * n := Nat.mul_le_mul_right n htq
        rw [Nat.add_mul, Nat.one_mul, Nat.mul_comm q n] at this
        omega
      rw [Nat.add_comm i, List.getD_eq_getElem?_getD, List.getElem?_eq_getElem hb]
      rfl

theorem interleaveBytes_inv {vs : List SegView} {n q j : Nat} {v : SegView} (hn : 0 < n) (hq : 0 < q) (hj : vs[j]? = some v) (hv : n * q ≤ v.len) :
    ∀ (c i : Nat) (out : List Nat), i + c = n → InterleaveInv vs n (n * vs.length) (n * q * vs.length) (j * n + i) out →
    ∃ out', interleaveBytes v.positions (n * vs.length) (n * q) n (List.range' i c) out (j * n + i) = .ok (out', (j + 1) * n) ∧
      InterleaveInv vs n (n * vs.length) (n * q * vs.length) ((j + 1) * n) out' := by
  intro c
  induction c with
  | zero =>
    intro i out hi hinv
    have : j * n + i = (j + 1) * n := by rw [Nat.add_mul, Nat.one_mul]; omega
    rw [this] at hinv ⊢
    exact ⟨out, rfl, hinv⟩
  | succ c ih =>
    intro i out hi hinv
    obtain ⟨out1, h1, h2⟩ := step_inv hn hq (by omega) hj hv hinv
    obtain ⟨out2, h3, h4⟩ := ih (i + 1) out1 (by omega) (by rw [← Nat.add_assoc]; exact h2)
    refine ⟨out2, ?_, h4⟩
    rw [List.range'_succ]
    unfold interleaveBytes
    rw [h1]
    rw [← Nat.add_assoc] at h3
    exact h3

theorem interleaveLoop_inv {vs : List SegView} {n q : Nat} (hn : 0 < n) (hq : 0 < q) (hpl : ∀ v ∈ vs, v.Plain)
    (hv : ∀ v ∈ vs, n * q ≤ v.len) : ∀ (rest : List SegView) (j : Nat) (out : List Nat), vs.drop j = rest → j ≤ vs.length →
    InterleaveInv vs n (n * vs.length) (n * q * vs.length) (j * n) out →
    ∃ out', interleaveLoop (n * vs.length) (n * q) n rest out (j * n) = .ok out' ∧
      InterleaveInv vs n (n * vs.length) (n * q * vs.length) (vs.length * n) out' := by
  intro rest
  induction rest with
  | nil =>
    intro j out hd hjl hinv
    have : j = vs.length := by
      have := List.drop_eq_nil_iff.mp hd
      omega
    subst this
    exact ⟨out, rfl, hinv⟩
  | cons v rest ih =>
    intro j out hd hjl hinv
    have hj : vs[j]? = some v := by
      have := congrArg (fun l => l[0]?) hd
      simpa using this
    have hmem := List.mem_of_getElem? hj
    have hjm : j < vs.length := (List.getElem?_eq_some_iff.mp hj).1
    obtain ⟨out1, h1, h2⟩ := interleaveBytes_inv hn hq hj (hv v hmem) n 0 out (by omega) (by rw [Nat.add_zero]; exact hinv)
    rw [Nat.add_zero] at h1
    obtain ⟨out2, h3, h4⟩ := ih (j + 1) out1 (by
      rw [← List.drop_drop, hd]; rfl) hjm h2
    refine ⟨out2, ?_, h4⟩
    unfold interleaveLoop
    rw [SegView.indexesFromBase_plain (hpl v hmem)]
    simp only
    rw [List.range_eq_range', h1]
    exact h3

/-- the length of the shortest of the given segments -/
def minLen : List SegView → Nat
  | [] => 0
  | [v] => v.len
  | v :: w :: rest => min v.len (minLen (w :: rest))

theorem fold_min (rest : List SegView) : ∀ s : Nat, rest.foldl (fun s w => if w.len < s then w.len else s) s =
    (match rest with | [] => s | _ => min s (minLen rest)) := by
  induction rest with
  | nil => intro s; rfl
  | cons w rest ih =>
    intro s
    rw [List.foldl_cons, ih]
    cases rest with
    | nil => simp only [minLen]; split <;> omega
    | cons x rest => simp only [minLen]; split <;> omega

theorem minLen_le {vs : List SegView} : ∀ v ∈ vs, minLen vs ≤ v.len := by
  induction vs with
  | nil => intro v h; cases h
  | cons w rest ih =>
    intro v hv
    cases rest with
    | nil =>
      rcases List.mem_cons.mp hv with rfl | hv
      · exact Nat.le_refl _
      · cases hv
    | cons x rest =>
      simp only [minLen]
      rcases List.mem_cons.mp hv with rfl | hv
      · exact Nat.min_le_left _ _
      · exact Nat.le_trans (Nat.min_le_right _ _) (ih v hv)

/-- **C30.** Interleaving segments (whole or slices of one array) by `n` bytes: the result has `m` times the usable
length (the shortest length rounded down to a multiple of `n`), and byte `k` is byte `(k/(n·m))·n + k mod n` of segment
`(k/n) mod m`, whatever was in the uninitialised array. -/
theorem C30_indexes {vs : List SegView} {n : Nat} {junk : Nat → List Nat} (hne : vs ≠ []) (hn : 0 < n) (hpl : ∀ v ∈ vs, v.Plain)
    (hjunk : ∀ k, (junk k).length = k) :
    ∃ idx, interleaveIndexes vs n junk = .ok idx ∧ idx.length = vs.length * (minLen vs / n * n) ∧
      ∀ k, k < idx.length → ∃ v p, vs[k / n % vs.length]? = some v ∧
        v.positions[k / (n * vs.length) * n + k % n]? = some p ∧ idx[k]? = some p := by
  cases vs with
  | nil => exact absurd rfl hne
  | cons v rest =>
    generalize hvs : v :: rest = vs at *
    have hsize : rest.foldl (fun s w => if w.len < s then w.len else s) v.len = minLen vs := by
      rw [fold_min, ← hvs]
      cases rest <;> rfl
    have husable : minLen vs - minLen vs % n = n * (minLen vs / n) := by
      have := Nat.div_add_mod (minLen vs) n
      omega
    have hunf : interleaveIndexes vs n junk = if n * (minLen vs / n) > 0 then
        interleaveLoop (n * vs.length) (n * (minLen vs / n)) n vs (junk (n * (minLen vs / n) * vs.length)) 0
      else .ok (junk (n * (minLen vs / n) * vs.length)) := by
      rw [← hvs]
      unfold interleaveIndexes
      simp only
      rw [if_neg (by omega), hsize, hvs, husable]
    by_cases hq : 0 < minLen vs / n
    · have hm0 : 0 < vs.length := by rw [← hvs]; simp
      have hf0 : 0 < n * vs.length := Nat.mul_pos hn hm0
      rw [hunf, if_pos (Nat.mul_pos hn hq)]
      have hle : ∀ w ∈ vs, n * (minLen vs / n) ≤ w.len := fun w hw =>
        Nat.le_trans (Nat.mul_div_le _ _) (minLen_le w hw)
      obtain ⟨out, h1, h2, h3⟩ := interleaveLoop_inv hn hq hpl hle vs 0 (junk (n * (minLen vs / n) * vs.length)) (by simp) (by omega)
        ⟨hjunk _, fun k _ h => by rw [Nat.zero_mul] at h; omega⟩
      rw [Nat.zero_mul] at h1
      refine ⟨out, h1, ?_, ?_⟩
      · rw [h2, Nat.mul_comm (n * _), Nat.mul_comm n]
      · intro k hk
        have := h3 k (by omega) (by rw [Nat.mul_comm vs.length]; exact Nat.mod_lt _ hf0)
        unfold interleaveTarget at this
        rw [Nat.mod_mul_right_div_self, Nat.mod_mul_right_mod] at this
        rw [List.getElem?_eq_getElem hk] at this ⊢
        cases hv : vs[k / n % vs.length]? with
        | none => rw [hv] at this; cases this
        | some w =>
          rw [hv] at this
          refine ⟨w, out[k], rfl, ?_, rfl⟩
          exact this.symm
    · have : n * (minLen vs / n) = 0 := by
        rw [Nat.eq_zero_of_not_pos hq, Nat.mul_zero]
      rw [hunf, this, if_neg (by omega)]
      refine ⟨_, rfl, ?_, ?_⟩
      · rw [hjunk, Nat.mul_comm _ n, this, Nat.mul_zero, Nat.zero_mul]
      · intro k hk
        rw [hjunk, Nat.zero_mul] at hk
        omega

/-- … so as bytes, over an array of the right length. -/
theorem C30_interleave_partial {rs : List Raw} {n : Nat} {junk : Nat → List Nat} {a : Nat} (hne : rs ≠ []) (hn : 0 < n)
    (hpl : ∀ r ∈ rs, r.view.Plain) (hsame : ∀ r ∈ rs, r.arr = a) (hjunk : ∀ k, (junk k).length = k) {h : Heap}
    (hok : ∀ r ∈ rs, r.view.Wf ∧ (h.at a).data.length = r.view.baseLen) :
    ∃ r, interleaveSegments rs n junk = .ok r ∧ (r.data h).length = rs.length * (minLen (rs.map Raw.view) / n * n) ∧
      ∀ k, k < (r.data h).length → ∃ s b, rs[k / n % rs.length]? = some s ∧
        (s.data h)[k / (n * rs.length) * n + k % n]? = some b ∧ (r.data h)[k]? = some b := by
  obtain ⟨idx, h1, h2, h3⟩ := C30_indexes (vs := rs.map Raw.view) (n := n) (junk := junk) (by simpa using hne) hn
    (by intro v hv; obtain ⟨r, hr, rfl⟩ := List.mem_map.mp hv; exact hpl r hr) hjunk
  rw [List.length_map] at h2 h3
  cases hrs : rs with
  | nil => exact absurd hrs hne
  | cons r rest =>
    have hr : r.arr = a := hsame r (by rw [hrs]; exact List.mem_cons_self)
    have hall : rest.all (fun q => q.arr == r.arr) = true := by
      rw [List.all_eq_true]
      intro q hq
      rw [hsame q (by rw [hrs]; exact List.mem_cons_of_mem _ hq), hr]
      exact beq_self_eq_true a
    refine ⟨⟨r.arr, .order r.view.baseLen idx⟩, ?_, ?_, ?_⟩
    · unfold interleaveSegments
      rw [← hrs, h1, hrs]
      simp only
      rw [if_pos hall]
    · rw [← hrs, ← h2]
      simp [Raw.data, SegView.read]
    · intro k hk
      have hki : k < idx.length := by simpa [Raw.data, SegView.read] using hk
      obtain ⟨v, p, q1, q2, q3⟩ := h3 k hki
      rw [List.getElem?_map] at q1
      rw [← hrs]
      cases hs : rs[k / n % rs.length]? with
      | none => rw [hs] at q1; cases q1
      | some s =>
        rw [hs] at q1
        injection q1 with q1
        subst q1
        have hsm := List.mem_of_getElem? hs
        obtain ⟨w1, w2⟩ := hok s hsm
        have hp : p < (h.at a).data.length := by
          rw [w2]; exact w1.pos_lt p (List.mem_of_getElem? q2)
        refine ⟨s, (h.at a).data[p], rfl, ?_, ?_⟩
        · unfold Raw.data
          rw [hsame s hsm, SegView.read_get w1 w2, q2]
          exact List.getElem?_eq_getElem hp
        · unfold Raw.data SegView.read
          simp only
          rw [List.getElem?_map, q3, hr]
          simp [List.getD_eq_getElem?_getD, List.getElem?_eq_getElem hp]

/-- **Interleaving a reordered segment always fails** (`i` is used before assignment in `get_indexes_from_base`), as
soon as there is something to interleave. -/
theorem C30_indexed_fails {vs : List SegView} {n m : Nat} {idx : List Nat} {junk : Nat → List Nat} (hn : 0 < n)
    (hlen : n ≤ minLen (.order m idx :: vs)) : interleaveIndexes (.order m idx :: vs) n junk = .error .nameError := by
  unfold interleaveIndexes
  simp only
  rw [if_neg (by omega)]
  have hsize : vs.foldl (fun s w => if w.len < s then w.len else s) (SegView.order m idx).len = minLen (.order m idx :: vs) := by
    rw [fold_min]
    cases vs <;> rfl
  rw [hsize, if_pos (by have := Nat.mod_lt (minLen (SegView.order m idx :: vs)) hn; omega)]
  rfl

example : interleaveIndexes [.part 12 0 4, .part 12 6 5] 2 (fun k => List.replicate k 77) = .ok [0, 1, 6, 7, 2, 3, 8, 9] := by
  decide
example : interleaveIndexes [.part 12 0 4, .part 12 6 5] 3 (fun k => List.replicate k 77) = .ok [0, 1, 2, 6, 7, 8] := by
  decide

end Atr
