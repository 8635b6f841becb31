import Verif.Model.Resize
import Verif.Props.Segments
/-!
# C90: containers that grow
-/
namespace Atr

theorem length_copies (a : Bytes) (k : Nat) : (List.replicate k a).flatten.length = k * a.length := by
  rw [List.length_flatten, List.map_replicate, List.sum_replicate_nat]

theorem copies_get (a : Bytes) : ∀ (k j : Nat), j < k * a.length → (List.replicate k a).flatten[j]? = a[j % a.length]? := by
  intro k
  induction k with
  | zero => intro j h; rw [Nat.zero_mul] at h; omega
  | succ k ih =>
    intro j h
    rw [Nat.succ_mul] at h
    rw [List.replicate_succ, List.flatten_cons]
    by_cases hj : j < a.length
    · rw [List.getElem?_append_left hj, Nat.mod_eq_of_lt hj]
    · rw [List.getElem?_append_right (by omega), ih _ (by omega), Nat.mod_eq_sub_mod (by omega : a.length ≤ j)]

theorem enough_copies (n : Nat) {m : Nat} (h : 0 < m) : n ≤ (n + m - 1) / m * m := by
  have h1 := Nat.div_add_mod (n + m - 1) m
  have h2 := Nat.mod_lt (n + m - 1) h
  rw [Nat.mul_comm] at h1
  omega

theorem npResizeView_len (old n : Nat) : (npResizeView old n).len = n := by
  unfold npResizeView; split <;> rfl

theorem npResizeView_wf (old n : Nat) : (npResizeView old n).Wf := by
  unfold npResizeView
  split
  · trivial
  · rename_i h
    show 0 + n ≤ _
    have := enough_copies n (m := old) (by omega)
    omega

theorem npResize_length {a : Bytes} {n : Nat} : (npResize a n).length = (npResizeView a.length n).baseLen := by
  unfold npResize npResizeView
  have : a = [] ↔ a.length = 0 := List.length_eq_zero_iff.symm
  by_cases h : a = [] ∨ n = 0
  · rw [if_pos h, if_pos (by rw [← this]; exact h)]; simp [SegView.baseLen]
  · rw [if_neg h, if_neg (by rw [← this]; exact h)]; exact length_copies _ _

/-- what the resized array shows -/
theorem npResize_get (a : Bytes) (n j : Nat) (hj : j < n) : (npResize a n)[j]? = if a = [] then some 0 else a[j % a.length]? := by
  unfold npResize
  by_cases ha : a = []
  · rw [if_pos (.inl ha), if_pos ha, List.getElem?_replicate, if_pos hj]
  · rw [if_neg (fun h => h.elim ha (by omega)), if_neg ha]
    have h0 : 0 < a.length := List.length_pos_iff.mpr ha
    exact copies_get _ _ _ (Nat.lt_of_lt_of_le hj (enough_copies n h0))

theorem npResizeView_read (old n : Nat) (c : Bytes) (hc : c.length = (npResizeView old n).baseLen) (j : Nat) :
    ((npResizeView old n).read c)[j]? = if j < n then c[j]? else none := by
  rw [SegView.read_get (npResizeView_wf old n) hc]
  have hp : (npResizeView old n).positions = List.range n := by
    unfold npResizeView
    split
    · rfl
    · exact List.range_eq_range'.symm
  rw [hp]
  by_cases hj : j < n
  · rw [List.getElem?_range hj, if_pos hj]; rfl
  · rw [List.getElem?_eq_none (by simp; omega), if_neg hj]; rfl

/-- the new contents of one array -/
def refill (zeros : Bool) (a : Bytes) (n : Nat) : Bytes :=
  if zeros && decide ((npResizeView a.length n).len > a.length) then
    (npResizeView a.length n).modRange (npResize a n) a.length (npResizeView a.length n).len (fun _ => 0)
  else npResize a n

theorem refill_length (zeros : Bool) (a : Bytes) (n : Nat) : (refill zeros a n).length = (npResizeView a.length n).baseLen := by
  unfold refill
  split
  · rw [← npResize_length]
    cases npResizeView a.length n with
    | whole m => exact length_modSlice _ _ _ _
    | part m off len => exact length_modSlice _ _ _ _
    | order m idx => simp only [SegView.modRange]; exact length_modBase _ _ _
  · exact npResize_length

theorem refill_get (zeros : Bool) (a : Bytes) (n j : Nat) (hj : j < n) : (refill zeros a n)[j]? =
    if j < a.length then a[j]? else if zeros || a.isEmpty then some 0 else a[j % a.length]? := by
  have hg := npResize_get a n j hj
  unfold refill
  rw [npResizeView_len]
  by_cases hz : (zeros && decide (n > a.length)) = true
  · rw [if_pos hz]
    simp only [Bool.and_eq_true, decide_eq_true_eq] at hz
    have hm : ((npResizeView a.length n).modRange (npResize a n) a.length n (fun _ => 0))[j]? =
        if a.length ≤ j ∧ j < n then (npResize a n)[j]?.map (fun _ => 0) else (npResize a n)[j]? := by
      unfold npResizeView
      split
      · exact getElem?_modSlice _ _ _ _ _
      · show (modSlice _ (0 + min a.length n) (0 + min n n) _)[j]? = _
        rw [getElem?_modSlice, Nat.zero_add, Nat.zero_add, Nat.min_self, Nat.min_eq_left (by omega)]
    rw [hm]
    by_cases h1 : j < a.length
    · rw [if_neg (by omega), if_pos h1, hg, if_neg (by rintro rfl; simp at h1), Nat.mod_eq_of_lt h1]
    · rw [if_pos ⟨by omega, hj⟩, if_neg h1, hz.1, Bool.true_or, if_pos rfl, hg]
      by_cases ha : a = []
      · rw [if_pos ha]; rfl
      · rw [if_neg ha, List.getElem?_eq_getElem (Nat.mod_lt _ (List.length_pos_iff.mpr ha))]; rfl
  · rw [if_neg hz, hg]
    simp only [Bool.and_eq_true, decide_eq_true_eq, not_and] at hz
    by_cases h1 : j < a.length
    · rw [if_neg (by rintro rfl; simp at h1), Nat.mod_eq_of_lt h1, if_pos h1]
    · have hzf : zeros = false := by
        cases zeros with
        | false => rfl
        | true => have := hz rfl; omega
      rw [if_neg h1, hzf, Bool.false_or]
      by_cases ha : a = []
      · rw [if_pos ha, if_pos (by rw [ha]; rfl)]
      · rw [if_neg ha, if_neg (by simpa using ha)]

/-- a container that may be resized: a whole array -/
structure Container (r : Raw) (h : Heap) (n0 : Nat) : Prop where
  ok : r.Ok h
  whole : r.view = .whole n0

theorem heap_at_append {h : Heap} (a : Arr) : Heap.at (h ++ [a]) h.length = a := by
  unfold Heap.at; simp [List.getD_eq_getElem?_getD]

theorem heap_at_old {h : Heap} (a : Arr) {i : Nat} (hi : i < h.length) : Heap.at (h ++ [a]) i = h.at i := by
  unfold Heap.at
  rw [List.getD_eq_getElem?_getD, List.getElem?_append_left hi, List.getD_eq_getElem?_getD]

theorem resize_eq {r : Raw} {h : Heap} {n0 : Nat} (hc : Container r h n0) (zeros : Bool) (n : Nat) :
    r.resize true zeros n h = .ok ((n0, n), ⟨h.length, npResizeView n0 n⟩,
      h ++ [⟨refill zeros (h.at r.arr).data n, refill zeros (h.at r.arr).style n⟩]) := by
  have hd := hc.ok.data
  have hs := hc.ok.style
  rw [hc.whole] at hd hs
  simp only [SegView.baseLen] at hd hs
  unfold Raw.resize refill
  rw [hc.whole]
  simp only [Bool.not_true, Bool.false_eq_true, if_false]
  rw [hd, hs, npResizeView_len]

/-- what a row of bytes becomes: old bytes first, then zeros (or, if asked for, the old bytes again and again) -/
def grown (zeros : Bool) (a : Bytes) (n : Nat) : Bytes :=
  (List.range n).map fun j => if j < a.length then a.getD j 0 else if zeros then 0 else a.getD (j % a.length) 0

theorem grown_get (zeros : Bool) (a : Bytes) (n j : Nat) (hj : j < n) : (grown zeros a n)[j]? =
    if j < a.length then a[j]? else if zeros || a.isEmpty then some 0 else a[j % a.length]? := by
  unfold grown
  rw [List.getElem?_map, List.getElem?_range hj, Option.map_some]
  by_cases h1 : j < a.length
  · rw [if_pos h1, if_pos h1, List.getD_eq_getElem?_getD, List.getElem?_eq_getElem h1]; rfl
  · rw [if_neg h1, if_neg h1]
    cases zeros with
    | true => rfl
    | false =>
      by_cases ha : a = []
      · subst ha; rfl
      · have hm := Nat.mod_lt j (List.length_pos_iff.mpr ha)
        rw [if_neg (by decide), if_neg (by simpa using ha), List.getD_eq_getElem?_getD, List.getElem?_eq_getElem hm]; rfl

/-- **C90, the container.** A container can be resized; it then shows its old bytes as far as they fit and zeros after them (with `zeros=False` the old bytes
repeated), its styles likewise, and no array that existed before is touched. -/
theorem C90_container {r : Raw} {h : Heap} {n0 : Nat} (hc : Container r h n0) (zeros : Bool) (n : Nat) : ∃ r' h',
    r.resize true zeros n h = .ok ((n0, n), r', h') ∧ r'.Ok h' ∧ r'.data h' = grown zeros (r.data h) n ∧ r'.style h' = grown zeros (r.style h) n ∧
    ∀ q : Raw, q.Ok h → q.Ok h' ∧ q.arr ≠ r'.arr ∧ q.data h' = q.data h ∧ q.style h' = q.style h := by
  have hd := hc.ok.data
  have hs := hc.ok.style
  rw [hc.whole] at hd hs
  simp only [SegView.baseLen] at hd hs
  have hrd : r.data h = (h.at r.arr).data := by unfold Raw.data; rw [hc.whole]; rfl
  have hrs : r.style h = (h.at r.arr).style := by unfold Raw.style; rw [hc.whole]; rfl
  have key : ∀ a : Bytes, a.length = n0 → (npResizeView n0 n).read (refill zeros a n) = grown zeros a n := by
    intro a ha
    apply List.ext_getElem?
    intro j
    rw [← ha, npResizeView_read _ _ _ (refill_length zeros a n)]
    by_cases hj : j < n
    · rw [if_pos hj, refill_get zeros a n j hj, grown_get zeros a n j hj]
    · rw [if_neg hj, List.getElem?_eq_none (by unfold grown; simp; omega)]
  refine ⟨_, _, resize_eq hc zeros n, ⟨by simp, npResizeView_wf n0 n, ?_, ?_⟩, ?_, ?_, fun q hq => ?_⟩
  · rw [heap_at_append]; simp only; rw [refill_length, hd]
  · rw [heap_at_append]; simp only; rw [refill_length, hs]
  · rw [hrd]; unfold Raw.data; simp only; rw [heap_at_append]; exact key _ hd
  · rw [hrs]; unfold Raw.style; simp only; rw [heap_at_append]; exact key _ hs
  · have hat := heap_at_old (h := h) ⟨refill zeros (h.at r.arr).data n, refill zeros (h.at r.arr).style n⟩ hq.lt
    have hql := hq.lt
    refine ⟨⟨by simp; omega, hq.wf, by rw [hat]; exact hq.data, by rw [hat]; exact hq.style⟩, by show q.arr ≠ h.length; omega, ?_, ?_⟩
    · unfold Raw.data; rw [hat]
    · unfold Raw.style; rw [hat]

/-- the plain case: a container that grows shows its old bytes and then zeros -/
theorem grown_zeros {a : Bytes} {n : Nat} (h : a.length ≤ n) : grown true a n = a ++ List.replicate (n - a.length) 0 := by
  apply List.ext_getElem?
  intro j
  by_cases hj : j < n
  · rw [grown_get true a n j hj]
    by_cases h1 : j < a.length
    · rw [if_pos h1, List.getElem?_append_left h1]
    · rw [if_neg h1, List.getElem?_append_right (by omega), List.getElem?_replicate, Bool.true_or, if_pos rfl, if_pos (by omega)]
  · rw [List.getElem?_eq_none (by unfold grown; simp; omega), List.getElem?_eq_none (by simp; omega)]

theorem grown_take {a : Bytes} {n : Nat} (zeros : Bool) (h : n ≤ a.length) : grown zeros a n = a.take n := by
  apply List.ext_getElem?
  intro j
  by_cases hj : j < n
  · rw [grown_get zeros a n j hj, if_pos (by omega), List.getElem?_take, if_pos hj]
  · rw [List.getElem?_eq_none (by unfold grown; simp; omega), List.getElem?_eq_none (by simp; omega)]

/-! ### segments inside the container -/

/-- reading through a slice or an order over a longer array -/
theorem read_inside {v : SegView} (hv : ∀ n, v ≠ .whole n) {a : Bytes} (ha : ∀ p ∈ v.positions, p < a.length) (i : Nat) :
    (v.read a)[i]? = v.positions[i]?.bind fun p => a[p]? := by
  cases v with
  | whole n => exact absurd rfl (hv n)
  | part n off len =>
    simp only [SegView.read, SegView.positions] at *
    rw [getElem?_slice]
    by_cases hi : i < len
    · rw [if_pos (by omega), List.getElem?_range' hi]; simp
    · rw [if_neg (by omega), List.getElem?_eq_none (by simp; omega)]; rfl
  | order n idx =>
    simp only [SegView.read, SegView.positions] at *
    rw [List.getElem?_map]
    cases hp : idx[i]? with
    | none => rfl
    | some p =>
      have := ha p (List.mem_of_getElem? hp)
      simp [List.getD_eq_getElem?_getD, List.getElem?_eq_getElem this]

theorem write_inside {v : SegView} (hv : ∀ n, v ≠ .whole n) (a : Bytes) {i p : Nat} (hp : v.positions[i]? = some p) (x : UInt8) :
    v.write a i x = .ok (a.set p x) := by
  cases v with
  | whole n => exact absurd rfl (hv n)
  | part n off len =>
    simp only [SegView.positions] at hp
    obtain ⟨hi, he⟩ := List.getElem?_eq_some_iff.mp hp
    rw [List.length_range'] at hi
    rw [List.getElem_range'] at he
    simp only [SegView.write, if_pos hi]
    rw [← he, Nat.one_mul]
  | order n idx =>
    simp only [SegView.positions] at hp
    simp only [SegView.write, hp]

theorem slc_not_whole (v : SegView) (a b n : Nat) : v.slc a b ≠ .whole n := by
  unfold SegView.slc
  cases v <;> simp only <;> (try split) <;> exact nofun

theorem build_not_whole {n0 : Nat} {t : Nest} (ht : t ≠ .base) {v : SegView} (hv : t.build n0 = .ok v) : ∀ n, v ≠ .whole n := by
  cases t with
  | base => exact absurd rfl ht
  | slc inner a b =>
    intro n
    simp only [Nest.build] at hv
    cases hi : inner.build n0 with
    | error e => rw [hi] at hv; cases hv
    | ok w => rw [hi] at hv; cases hv; exact slc_not_whole w a b n
  | reorder inner l =>
    intro n
    simp only [Nest.build] at hv
    cases hi : inner.build n0 with
    | error e => rw [hi] at hv; cases hv
    | ok w =>
      rw [hi] at hv
      by_cases hl : l.all (· < w.len)
      · obtain ⟨u, h1, _, _, _, m, idx, h2⟩ := SegView.indexed_ok hl
        have hv : w.indexed l = .ok v := hv
        rw [h1] at hv
        cases hv
        rw [h2]; exact nofun
      · have hv : w.indexed l = .ok v := hv
        rw [SegView.indexed_error hl] at hv; cases hv

/-- how a segment looks at the new arrays -/
theorem replace_view {n0 n arr arr' : Nat} (hn : n0 ≤ n) {v : SegView} (hw : v.Wf) (hb : v.baseLen = n0) (hv : ∀ n, v ≠ .whole n) :
    ∃ w, (Raw.mk arr v).replaceArrays ⟨arr', npResizeView n0 n⟩ = .ok ⟨arr', w⟩ ∧ w.positions = v.positions ∧ ∀ n, w ≠ .whole n := by
  unfold Raw.replaceArrays
  rw [if_neg (by rw [npResizeView_len, hb]; omega)]
  cases v with
  | whole m => exact absurd rfl (hv m)
  | part m off len =>
    simp only [SegView.baseLen, SegView.Wf] at hb hw
    refine ⟨_, rfl, ?_, slc_not_whole _ _ _⟩
    rw [(SegView.slc_spec _ _ _).1]
    have hp : (npResizeView n0 n).positions = List.range n := by
      unfold npResizeView
      split
      · rfl
      · exact List.range_eq_range'.symm
    rw [hp]
    apply List.ext_getElem?
    intro k
    rw [getElem?_slice]
    simp only [SegView.positions]
    grind
  | order m idx => exact ⟨_, rfl, rfl, nofun⟩

/-- **C90, segments inside.** After a container has grown (or kept its size), every segment made from it, by slices and reorderings in any nesting, can be moved to
the new arrays.  It then shows the bytes and styles it showed before, its bytes have the same places in the container (so comments stay where they are), and what
is stored through it is seen in the container at these places. -/
theorem C90_inside {r : Raw} {h : Heap} {n0 : Nat} (hc : Container r h n0) (zeros : Bool) {n : Nat} (hn : n0 ≤ n) {r' : Raw} {h' : Heap} {z : Nat × Nat}
    (hr : r.resize true zeros n h = .ok (z, r', h')) {t : Nest} (ht : t ≠ .base) {v : SegView} (hv : t.build n0 = .ok v) :
    ∃ c', (Raw.mk r.arr v).replaceArrays r' = .ok c' ∧ c'.data h' = (Raw.mk r.arr v).data h ∧ c'.style h' = (Raw.mk r.arr v).style h ∧
      (∀ i, i < v.len → ∃ p, v.rawIndex i = .ok p ∧ c'.view.rawIndex i = .ok p ∧
        ∀ x, ∃ h'', c'.writeData h' i x = .ok h'' ∧ r'.data h'' = (r'.data h').set p x ∧ r'.style h'' = r'.style h') := by
  rw [resize_eq hc] at hr
  obtain ⟨rfl, rfl⟩ : ⟨h.length, npResizeView n0 n⟩ = r' ∧ h ++ [⟨refill zeros (h.at r.arr).data n, refill zeros (h.at r.arr).style n⟩] = h' := by
    cases hr; exact ⟨rfl, rfl⟩
  have hd := hc.ok.data
  have hs := hc.ok.style
  rw [hc.whole] at hd hs
  simp only [SegView.baseLen] at hd hs
  have hnw := build_not_whole ht hv
  obtain ⟨hw, hb⟩ : v.Wf ∧ v.baseLen = n0 := by
    rcases Nest.build_spec n0 t with ⟨u, ps, h1, _, _, h4, h5⟩ | ⟨h1, _⟩
    · rw [h1] at hv; cases hv; exact ⟨h4, h5⟩
    · rw [h1] at hv; cases hv
  obtain ⟨w, e1, e2, e3⟩ := replace_view (arr := r.arr) (arr' := h.length) hn hw hb hnw
  have hlt : ∀ p ∈ v.positions, p < n0 := fun p hp => by have := hw.pos_lt p hp; omega
  have hbig : ∀ a : Bytes, a.length = n0 → n ≤ (refill zeros a n).length := by
    intro a ha
    rw [refill_length, ha]
    have hwf := npResizeView_wf n0 n
    have hll := npResizeView_len n0 n
    cases hvv : npResizeView n0 n with
    | whole m => rw [hvv] at hll; simp only [SegView.len, SegView.baseLen] at *; omega
    | part m off len => rw [hvv] at hll hwf; simp only [SegView.len, SegView.baseLen, SegView.Wf] at *; omega
    | order m idx => unfold npResizeView at hvv; split at hvv <;> cases hvv
  have key : ∀ a : Bytes, a.length = n0 → w.read (refill zeros a n) = v.read a := by
    intro a ha
    have := hbig a ha
    apply List.ext_getElem?
    intro i
    rw [read_inside e3 (fun p hp => by rw [e2] at hp; have := hlt p hp; omega), read_inside hnw (fun p hp => by rw [ha]; exact hlt p hp), e2]
    cases hp : v.positions[i]? with
    | none => rfl
    | some p =>
      have := hlt p (List.mem_of_getElem? hp)
      simp only [Option.bind_some]
      rw [refill_get zeros a n p (by omega), if_pos (by omega)]
  refine ⟨_, e1, ?_, ?_, fun i hi => ?_⟩
  · unfold Raw.data; simp only; rw [heap_at_append]; exact key _ hd
  · unfold Raw.style; simp only; rw [heap_at_append]; exact key _ hs
  · obtain ⟨p, hp, hri⟩ := SegView.rawIndex_eq hi
    have hwl : i < w.len := by
      rw [← SegView.length_positions, e2, SegView.length_positions]; exact hi
    obtain ⟨p', hp', hri'⟩ := SegView.rawIndex_eq hwl
    rw [e2, hp] at hp'
    cases hp'
    refine ⟨p, hri, hri', fun x => ⟨(h ++ [Arr.mk (refill zeros (h.at r.arr).data n) (refill zeros (h.at r.arr).style n)]).set h.length
        ⟨(refill zeros (h.at r.arr).data n).set p x, refill zeros (h.at r.arr).style n⟩, ?_, ?_, ?_⟩⟩
    · unfold Raw.writeData
      simp only [heap_at_append]
      rw [write_inside e3 _ (by rw [e2]; exact hp)]
    · unfold Raw.data
      simp only
      rw [Heap.at_set _ _ _ _ (by simp), if_pos rfl, heap_at_append]
      simp only
      have hlen := refill_length zeros (h.at r.arr).data n
      rw [hd] at hlen
      have hpl := hlt p (List.mem_of_getElem? hp)
      apply List.ext_getElem?
      intro j
      rw [npResizeView_read n0 n _ (by rw [List.length_set]; exact hlen), List.getElem?_set, List.getElem?_set, npResizeView_read n0 n _ hlen]
      have hbg := hbig _ hd
      have hrl : ((npResizeView n0 n).read (refill zeros (h.at r.arr).data n)).length = n := by
        rw [SegView.length_read (npResizeView_wf n0 n) hlen, npResizeView_len]
      by_cases hjn : j < n
      · rw [if_pos hjn]
        by_cases hj : p = j
        · rw [if_pos hj, if_pos hj, if_pos (by omega), if_pos (by omega)]
        · rw [if_neg hj, if_neg hj, if_pos hjn]
      · rw [if_neg hjn, if_neg (by omega), if_neg hjn]
    · unfold Raw.style
      simp only
      rw [Heap.at_set _ _ _ _ (by simp), if_pos rfl, heap_at_append]

/-- **C90, segments left behind.** A segment that is not moved goes on showing the old array: what is stored through the container does not reach it. -/
theorem C90_stale {r q r' : Raw} {h h' h'' : Heap} {n0 n : Nat} {z : Nat × Nat} (hc : Container r h n0) (zeros : Bool)
    (hr : r.resize true zeros n h = .ok (z, r', h')) (hq : q.Ok h) {i : Nat} {x : UInt8} (hw : r'.writeData h' i x = .ok h'') :
    q.data h'' = q.data h := by
  obtain ⟨r1, h1, e, ok, -, -, old⟩ := C90_container hc zeros n
  rw [e] at hr
  obtain ⟨-, rfl, rfl⟩ : (n0, n) = z ∧ r1 = r' ∧ h1 = h' := by cases hr; exact ⟨rfl, rfl, rfl⟩
  obtain ⟨q1, q2, q3, -⟩ := old q hq
  obtain ⟨-, -, k⟩ := (C24_write_data ok q1 i x).2 h'' hw
  rw [← q3]
  apply List.ext_getElem?
  intro j
  rw [k j, if_neg (by rintro ⟨_, h, _⟩; exact q2 h)]

/-- **C90, only once.** A container with bytes in it that has been resized cannot be resized again: its array is now a view of another one. -/
theorem C90_once {r r' : Raw} {h h' : Heap} {n0 n : Nat} {z : Nat × Nat} (hc : Container r h n0) (zeros : Bool) (h0 : 0 < n0) (hn : 0 < n)
    (hr : r.resize true zeros n h = .ok (z, r', h')) (can zeros' : Bool) (m : Nat) : r'.resize can zeros' m h' = .error .valueError := by
  rw [resize_eq hc] at hr
  obtain rfl : ⟨h.length, npResizeView n0 n⟩ = r' := by cases hr; rfl
  unfold Raw.resize
  cases can with
  | false => rfl
  | true =>
    have : npResizeView n0 n = .part ((n + n0 - 1) / n0 * n0) 0 n := by unfold npResizeView; rw [if_neg (by omega)]
    simp only [this]
    rfl

/-- **C90, the container itself.** A segment that shows the whole container without slicing (as the one that was resized did) cannot be moved: `ValueError`. -/
theorem C90_itself {r q r' : Raw} {h h' : Heap} {n0 n : Nat} {z : Nat × Nat} (hc : Container r h n0) (zeros : Bool) (hn : n0 ≤ n)
    (hr : r.resize true zeros n h = .ok (z, r', h')) (hq : q.view = .whole n0) : q.replaceArrays r' = .error .valueError := by
  rw [resize_eq hc] at hr
  obtain rfl : ⟨h.length, npResizeView n0 n⟩ = r' := by cases hr; rfl
  unfold Raw.replaceArrays
  rw [hq, if_neg (by rw [npResizeView_len]; exact Nat.not_lt.mpr hn)]

/-- **C90, shrinking.** After a container has shrunk no segment made from it can be moved: `AttributeError` (meant was `NotImplementedError`). -/
theorem C90_shrink {r r' : Raw} {h h' : Heap} {n0 n : Nat} {z : Nat × Nat} (hc : Container r h n0) (zeros : Bool) (hn : n < n0)
    (hr : r.resize true zeros n h = .ok (z, r', h')) {t : Nest} {v : SegView} (hv : t.build n0 = .ok v) :
    (Raw.mk r.arr v).replaceArrays r' = .error .attributeError := by
  rw [resize_eq hc] at hr
  obtain rfl : ⟨h.length, npResizeView n0 n⟩ = r' := by cases hr; rfl
  rcases Nest.build_spec n0 t with ⟨w, ps, h1, _, _, _, h5⟩ | ⟨h1, _⟩
  · rw [h1] at hv
    cases hv
    unfold Raw.replaceArrays
    rw [if_pos (by rw [npResizeView_len, h5]; exact hn)]
  · rw [h1] at hv; cases hv

/-- **C90, moving twice.** Moving a slice to the same container a second time should do nothing.  It fails exactly if the new size is not a multiple of the old: the array
behind the container is then longer than the container. -/
theorem C90_twice {r r' : Raw} {h h' : Heap} {n0 n : Nat} {z : Nat × Nat} (hc : Container r h n0) (zeros : Bool) (h0 : 0 < n0) (hn : n0 ≤ n)
    (hr : r.resize true zeros n h = .ok (z, r', h')) {off len : Nat} (hl : off + len ≤ n0) {c' : Raw}
    (hm : (Raw.mk r.arr (.part n0 off len)).replaceArrays r' = .ok c') :
    c'.replaceArrays r' = if n % n0 = 0 then .ok c' else .error .attributeError := by
  rw [resize_eq hc] at hr
  obtain rfl : ⟨h.length, npResizeView n0 n⟩ = r' := by cases hr; rfl
  have hvw : npResizeView n0 n = .part ((n + n0 - 1) / n0 * n0) 0 n := by unfold npResizeView; rw [if_neg (by omega)]
  have hslc : (npResizeView n0 n).slc off (off + len) = .part ((n + n0 - 1) / n0 * n0) (if len = 0 then 0 else off) len := by
    rw [hvw]
    simp only [SegView.slc]
    rw [Nat.min_eq_left (by omega), Nat.min_eq_left (by omega)]
    by_cases hl0 : len = 0
    · rw [if_pos (by omega), if_pos hl0, hl0]
    · rw [if_neg (by omega), if_neg hl0, Nat.zero_add, Nat.add_sub_cancel_left]
  unfold Raw.replaceArrays at hm
  rw [if_neg (by rw [npResizeView_len]; simp only [SegView.baseLen]; omega)] at hm
  simp only at hm
  rw [hslc] at hm
  obtain rfl := Except.ok.inj hm
  have hk : n < (n + n0 - 1) / n0 * n0 ↔ ¬ n % n0 = 0 := by
    have hdm := Nat.div_add_mod n n0
    have hm0 := Nat.mod_lt n h0
    have h1 : (n + n0 - 1) / n0 = n / n0 + if n % n0 = 0 then 0 else 1 := by
      have : n + n0 - 1 = n % n0 + n0 - 1 + n0 * (n / n0) := by omega
      rw [this, Nat.add_mul_div_left _ _ h0]
      by_cases hz : n % n0 = 0
      · rw [if_pos hz, hz, Nat.div_eq_of_lt (by omega)]; omega
      · rw [if_neg hz, Nat.div_eq_of_lt_le (k := 1) (by omega) (by omega)]; omega
    rw [h1, Nat.add_mul]
    have hc : n / n0 * n0 = n0 * (n / n0) := Nat.mul_comm _ _
    by_cases hz : n % n0 = 0
    · rw [if_pos hz]; omega
    · rw [if_neg hz]; omega
  unfold Raw.replaceArrays
  by_cases hz : n % n0 = 0
  · rw [if_pos hz, if_neg (by rw [npResizeView_len]; simp only [SegView.baseLen]; omega)]
    simp only
    rw [hvw]
    simp only [SegView.slc]
    by_cases hl0 : len = 0
    · subst hl0; rw [if_pos rfl, if_pos (by omega)]
    · rw [if_neg hl0, Nat.min_eq_left (by omega), Nat.min_eq_left (by omega), if_neg (by omega), Nat.zero_add, Nat.add_sub_cancel_left]
  · rw [if_neg hz, if_pos (by rw [npResizeView_len]; simp only [SegView.baseLen]; exact hk.mpr hz)]

/-! ### a case -/

/-- four bytes grow to six; a slice and a reordered segment follow -/
example : (match (⟨0, .whole 4⟩ : Raw).resize true true 6 [⟨[1, 2, 3, 4], [0, 0, 0, 8]⟩] with
    | .ok (_, r, h) =>
      match (⟨0, .part 4 1 2⟩ : Raw).replaceArrays r, (⟨0, .order 4 [3, 0]⟩ : Raw).replaceArrays r with
      | .ok c, .ok d => [r.data h, r.style h, c.data h, d.style h]
      | _, _ => []
    | _ => []) = [[1, 2, 3, 4, 0, 0], [0, 0, 0, 8, 0, 0], [2, 3], [8, 0]] := by decide +kernel

/-- the slice can follow only once, the reordered segment again and again -/
example : (match (⟨0, .whole 4⟩ : Raw).resize true true 6 [⟨[1, 2, 3, 4], [0, 0, 0, 8]⟩] with
    | .ok (_, r, h) =>
      match (⟨0, .part 4 1 2⟩ : Raw).replaceArrays r, (⟨0, .order 4 [3, 0]⟩ : Raw).replaceArrays r with
      | .ok c, .ok d => [(c.replaceArrays r).map (·.data h), (d.replaceArrays r).map (·.data h)]
      | _, _ => []
    | _ => []) = [.error .attributeError, .ok [4, 1]] := by decide +kernel

/-- without `zeros` the old bytes are there again -/
example : (match (⟨0, .whole 4⟩ : Raw).resize true false 6 [⟨[1, 2, 3, 4], [0, 0, 0, 8]⟩] with
    | .ok (_, r, h) => some (r.data h)
    | _ => none) = some [1, 2, 3, 4, 1, 2] := by decide +kernel

end Atr
