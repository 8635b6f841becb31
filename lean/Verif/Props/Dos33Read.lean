import Verif.Spec.Dos33Read
import Verif.Props.Dos33Hang
/-!
# C75: reading DOS 3.3 files from any image

The exact outcome for every directory entry and every image: which bytes, or which exception.
-/
namespace Atr

theorem getD_pad {d : Bytes} {n i : Nat} : (d ++ List.replicate n 0).getD i 0 = d.getD i 0 := by
  rw [List.getD_eq_getElem?_getD, List.getD_eq_getElem?_getD]
  by_cases h : i < d.length
  · rw [List.getElem?_append_left h]
  · rw [List.getElem?_append_right (by omega), List.getElem?_eq_none (l := d) (by omega), List.getElem?_replicate]
    split <;> rfl

/-- the copy of a sector, as used for track/sector lists -/
def listSec33 (b : Bytes) (s : Nat) : Bytes := (WSector.ofData 256 (sec33 b s)).data

theorem listSec33_getD (b : Bytes) (s : Nat) {i : Nat} (h : i < 256) : (listSec33 b s).getD i 0 = b.getD (256 * s + i) 0 := by
  unfold listSec33
  rw [(ofData_data 256 (sec33 b s) (by unfold sec33; rw [length_slice]; omega)).1, getD_pad]
  unfold sec33 slice
  rw [List.getD_eq_getElem?_getD, List.getD_eq_getElem?_getD, List.getElem?_drop, List.getElem?_take_of_lt (by omega)]

theorem listSec33_length (b : Bytes) (s : Nat) : (listSec33 b s).length = 256 := by
  have h : (sec33 b s).length ≤ 256 := by unfold sec33; rw [length_slice]; omega
  unfold listSec33
  rw [(ofData_data 256 (sec33 b s) h).1, List.length_append, List.length_replicate]
  omega

theorem linkOf_list (b : Bytes) (s : Nat) : linkOf (listSec33 b s) = pairAt33 b s 1 := by
  unfold linkOf secOfTS pairAt33 secByte33
  rw [listSec33_getD b s (by omega), listSec33_getD b s (by omega), Nat.mul_comm]

theorem pairs_range : ∀ (k : Nat) (v : Bytes), v.length = 2 * k →
    (chunks 2 v).map (fun p => secOfTS (p.getD 0 0) (p.getD 1 0)) = (List.range k).map fun i => 16 * (v.getD (2 * i) 0).toNat + (v.getD (2 * i + 1) 0).toNat := by
  intro k
  induction k with
  | zero =>
    intro v hv
    rw [List.length_eq_zero_iff.mp (by omega : v.length = 0)]
    simp
  | succ k ih =>
    intro v hv
    match v, hv with
    | x :: y :: v, hv =>
      have hv' : v.length = 2 * k := by simp only [List.length_cons] at hv; omega
      rw [show x :: y :: v = [x, y] ++ v from rfl, chunks_append 2 (by omega) [x, y] v rfl, List.map_cons, ih v hv', List.range_succ_eq_map,
        List.map_cons, List.map_map]
      congr 1
      · simp only [List.getD_cons_zero, List.getD_cons_succ, secOfTS, List.cons_append, List.nil_append, Nat.mul_zero, Nat.zero_add]
        omega

theorem tsPairs_list (b : Bytes) (s : Nat) : tsPairsOf (listSec33 b s) = listPairs33 b s := by
  unfold tsPairsOf
  rw [pairs_range 122 _ (by rw [List.length_drop, listSec33_length])]
  unfold listPairs33
  refine List.map_congr_left fun i hi => ?_
  rw [List.mem_range] at hi
  unfold pairAt33 secByte33
  have hd : ∀ j, j < 244 → ((listSec33 b s).drop 12).getD j 0 = b.getD (256 * s + (12 + j)) 0 := by
    intro j hj
    rw [← listSec33_getD b s (by omega), List.getD_eq_getElem?_getD, List.getD_eq_getElem?_getD, List.getElem?_drop]
  rw [hd _ (by omega), hd _ (by omega)]
  rfl

/-! ### the loop over the list -/

theorem tsLoop_succ (maxS : Nat) (b : Bytes) (fuel s : Nat) : tsLoop maxS b (fuel + 1) s =
    if s = 0 then .ok [] else if ¬ s < maxS then .error .byteNotInFile
    else match tsLoop maxS b fuel (pairAt33 b s 1) with
      | .error e => .error e
      | .ok l => .ok ((s, listSec33 b s) :: l) := by
  rw [← linkOf_list]
  rfl

theorem tsLoop_chain {n : Nat} {b : Bytes} {s : Nat} {ts : List Nat} (h : ListChain33 n b s ts) : ∀ fuel, ts.length < fuel →
    tsLoop n b fuel s = .ok (ts.map fun t => (t, listSec33 b t)) := by
  induction h with
  | done =>
    intro fuel hf
    cases fuel with
    | zero => omega
    | succ fuel => rw [tsLoop_succ, if_pos rfl]; rfl
  | @next s ts h0 h1 _ ih =>
    intro fuel hf
    cases fuel with
    | zero => omega
    | succ fuel =>
      rw [tsLoop_succ, if_neg h0, if_neg (by omega), ih fuel (by simp only [List.length_cons] at hf; omega)]
      rfl

theorem tsLoop_out {n : Nat} {b : Bytes} {s : Nat} (h : ListOut33 n b s) : ∃ k, ∀ fuel, k < fuel → tsLoop n b fuel s = .error .byteNotInFile := by
  induction h with
  | @here s h0 h1 =>
    refine ⟨0, fun fuel hf => ?_⟩
    cases fuel with
    | zero => omega
    | succ fuel => rw [tsLoop_succ, if_neg h1, if_pos (by omega)]
  | @next s h0 h1 _ ih =>
    obtain ⟨k, hk⟩ := ih
    refine ⟨k + 1, fun fuel hf => ?_⟩
    cases fuel with
    | zero => omega
    | succ fuel => rw [tsLoop_succ, if_neg h0, if_neg (by omega), hk fuel (by omega)]

theorem tsLoop_inv {n : Nat} {b : Bytes} : ∀ (fuel s : Nat), tsLoop n b fuel s = .error .hang ∨ (∃ ts, ListChain33 n b s ts ∧ ts.length < fuel) ∨
    (ListOut33 n b s ∧ tsLoop n b fuel s = .error .byteNotInFile) := by
  intro fuel
  induction fuel with
  | zero => intro s; exact Or.inl rfl
  | succ fuel ih =>
    intro s
    rw [tsLoop_succ]
    by_cases h0 : s = 0
    · subst h0; exact Or.inr (Or.inl ⟨[], .done, by simp⟩)
    · rw [if_neg h0]
      by_cases h1 : s < n
      · rw [if_neg (by omega)]
        rcases ih (pairAt33 b s 1) with h | ⟨ts, h, hl⟩ | ⟨h, h'⟩
        · rw [h]; exact Or.inl rfl
        · exact Or.inr (Or.inl ⟨s :: ts, .next h0 h1 h, by simp only [List.length_cons]; omega⟩)
        · rw [h']; exact Or.inr (Or.inr ⟨.next h0 h1 h, rfl⟩)
      · rw [if_pos h1]
        exact Or.inr (Or.inr ⟨.here (by omega) h0, rfl⟩)

theorem tsLoop_not_hang {n : Nat} {b : Bytes} {s : Nat} {r} (h : ∃ fuel, tsLoop n b fuel s = r) (hr : r ≠ .error .hang) : tsLoop n b (n + 1) s ≠ .error .hang := by
  intro hh
  obtain ⟨fuel, h⟩ := h
  rw [(C46_dos33_list_hang_iff n b s).mp hh fuel] at h
  exact hr h.symm

theorem ListChain33.not_out {n : Nat} {b : Bytes} {s : Nat} {ts} (h : ListChain33 n b s ts) : ¬ ListOut33 n b s := by
  induction h with
  | done =>
    intro h
    cases h with
    | here _ h => exact h rfl
    | next h => exact h rfl
  | next h0 h1 _ ih =>
    intro h
    cases h with
    | here h => omega
    | next _ _ h => exact ih h

theorem ListChain33.unique {n : Nat} {b : Bytes} {s : Nat} {ts ts'} (h : ListChain33 n b s ts) : ListChain33 n b s ts' → ts' = ts := by
  induction h generalizing ts' with
  | done =>
    intro h
    cases h with
    | done => rfl
    | next h => exact absurd rfl h
  | next h0 h1 _ ih =>
    intro h
    cases h with
    | done => exact absurd rfl h0
    | next _ _ h => rw [ih h]

theorem tsLoop_of_chain {n : Nat} {b : Bytes} {s : Nat} {ts} (h : ListChain33 n b s ts) :
    tsLoop n b (n + 1) s = .ok (ts.map fun t => (t, listSec33 b t)) := by
  rcases tsLoop_inv (n := n) (b := b) (n + 1) s with h1 | ⟨ts', h1, h2⟩ | ⟨h1, _⟩
  · exact absurd h1 (tsLoop_not_hang ⟨_, tsLoop_chain h _ (Nat.lt_succ_self _)⟩ (by simp))
  · have := h.unique h1
    subst this
    exact tsLoop_chain h1 _ h2
  · exact absurd h1 h.not_out

theorem tsLoop_of_out {n : Nat} {b : Bytes} {s : Nat} (h : ListOut33 n b s) : tsLoop n b (n + 1) s = .error .byteNotInFile := by
  rcases tsLoop_inv (n := n) (b := b) (n + 1) s with h1 | ⟨ts', h1, h2⟩ | ⟨_, h1⟩
  · obtain ⟨k, hk⟩ := tsLoop_out h
    exact absurd h1 (tsLoop_not_hang ⟨k + 1, hk _ (by omega)⟩ (by simp))
  · exact absurd h h1.not_out
  · exact h1

theorem length_listPairs33 (b : Bytes) (s : Nat) : (listPairs33 b s).length = 122 := by
  unfold listPairs33
  rw [List.length_map, List.length_range]

theorem length_pairs33 (b : Bytes) (ts : List Nat) : (ts.flatMap (listPairs33 b)).length = 122 * ts.length := by
  induction ts with
  | nil => rfl
  | cons t ts ih => rw [List.flatMap_cons, List.length_append, ih, length_listPairs33, List.length_cons]; omega

theorem tsMap_of_chain {n : Nat} {b : Bytes} {d : DDirent} {ts} (h : ListChain33 n b (secOfTS d.track d.sector) ts) :
    d.tsMap n b = .ok (ts, dataSectors33 b d.numSectors ts) := by
  unfold DDirent.tsMap
  rw [tsLoop_of_chain h]
  simp only
  have h1 : (ts.map fun t => (t, listSec33 b t)).map (·.1) = ts := by rw [List.map_map]; exact List.map_id ts
  have h2 : ((ts.map fun t => (t, listSec33 b t)).flatMap fun x => tsPairsOf x.2) = ts.flatMap (listPairs33 b) := by
    rw [List.flatMap_map]
    congr 1
    funext t
    exact tsPairs_list b t
  rw [h1, h2, List.length_map]
  unfold pySliceTo dataSectors33
  have hl := length_pairs33 b ts
  by_cases hc : ts.length ≤ d.numSectors
  · rw [if_pos (by omega), if_pos hc]
    congr 3
    omega
  · rw [if_neg (by omega), if_neg hc, hl]
    congr 3
    omega

/-! ### the contents -/

theorem readPositions_ok {n : Nat} : ∀ (l : List Nat), (∀ s ∈ l, s < n) → readPositions n l = .ok (l.map (256 * ·)) := by
  intro l
  induction l with
  | nil => intro _; rfl
  | cons s l ih =>
    intro h
    unfold readPositions
    rw [if_neg (not_not_intro (h s (List.mem_cons_self ..))), ih fun x hx => h x (List.mem_cons_of_mem _ hx)]
    rfl

theorem readPositions_error {n : Nat} : ∀ (l : List Nat), (∃ s ∈ l, n ≤ s) → readPositions n l = .error .nameError := by
  intro l
  induction l with
  | nil => rintro ⟨_, h, _⟩; cases h
  | cons s l ih =>
    rintro ⟨x, hx, hn⟩
    unfold readPositions
    by_cases hs : s < n
    · rw [if_neg (not_not_intro hs)]
      rcases List.mem_cons.mp hx with rfl | hx
      · omega
      · rw [ih ⟨x, hx, hn⟩]
    · rw [if_pos hs]

theorem sec33_nil_iff {b : Bytes} (hb : b.length = 143360) (s : Nat) : sec33 b s = [] ↔ 560 ≤ s := by
  rw [← List.length_eq_zero_iff]
  unfold sec33
  rw [length_slice]
  omega

/-- **C75.** Reading a DOS 3.3 file, for every image of 143360 bytes, every number of sectors `n` that the VTOC states and every
entry that passed the check of the catalog.  The list of the file ends, or leads out of the disk, or goes round in circles:

* it ends, and all data sectors are below `n` and on the disk: their bytes, one after the other;
* it ends, and there is no data sector, or one that is not below `n`: `NameError`;
* it ends, and a data sector is below `n` but beyond the end of the image: it is left out; if it is the first one of a binary file,
  `IndexError`; if there are no others, the result is the whole image;
* it leads to a sector that is not below `n`: `ByteNotInFile`;
* it does neither: the code does not stop. -/
theorem C75_outcome {n : Nat} {b : Bytes} {d : DDirent} (hb : b.length = 143360) (hd : d.isSane = true) :
    (∀ ts map, ListChain33 n b (secOfTS d.track d.sector) ts → map = dataSectors33 b d.numSectors ts →
      ((map ≠ [] ∧ (∀ s ∈ map, s < n ∧ s < 560)) → d.getFile n b = .ok (map.flatMap fun s => slice b (256 * s) (256 * s + 256))) ∧
      ((map = [] ∨ ∃ s ∈ map, n ≤ s) → d.getFile n b = .error .nameError) ∧
      (∀ s r, map = s :: r → (∀ x ∈ map, x < n) → 560 ≤ s → (∃ x ∈ r, x < 560) →
        d.getFile n b = if d.ftype = 4 then .error .indexError
          else .ok ((map.filter (· < 560)).flatMap fun s => slice b (256 * s) (256 * s + 256))) ∧
      (∀ s r, map = s :: r → (∀ x ∈ map, x < n) → s < 560 →
        d.getFile n b = .ok ((map.filter (· < 560)).flatMap fun s => slice b (256 * s) (256 * s + 256))) ∧
      (map ≠ [] → (∀ x ∈ map, x < n ∧ 560 ≤ x) → d.getFile n b = .ok b)) ∧
    (ListOut33 n b (secOfTS d.track d.sector) → d.getFile n b = .error .byteNotInFile) ∧
    ((∀ ts, ¬ ListChain33 n b (secOfTS d.track d.sector) ts) → ¬ ListOut33 n b (secOfTS d.track d.sector) → d.getFile n b = .error .hang) := by
  have hget : d.getFile n b = match d.tsMap n b with
    | .error e => .error e
    | .ok (_, []) => .error .nameError
    | .ok (_, s :: map) =>
      match readPositions n (s :: map) with
      | .error e => .error e
      | .ok ps => if (ps.flatMap fun p => slice b p (p + 256)) = [] then .ok b
        else if d.ftype = 4 ∧ b.length ≤ 256 * s + 1 then .error .indexError
        else .ok (ps.flatMap fun p => slice b p (p + 256)) := by
    unfold DDirent.getFile
    rw [if_neg (by rw [hd]; decide)]
    rfl
  have hfm : ∀ l : List Nat, ((l.map (256 * ·)).flatMap fun p => slice b p (p + 256)) = l.flatMap (sec33 b) := by
    intro l
    rw [List.flatMap_map]
    rfl
  have hflt : ∀ l : List Nat, l.flatMap (sec33 b) = (l.filter (· < 560)).flatMap (sec33 b) := by
    intro l
    induction l with
    | nil => rfl
    | cons x l ih =>
      rw [List.flatMap_cons, List.filter_cons, ih]
      by_cases hx : x < 560
      · rw [if_pos (by simpa using hx), List.flatMap_cons]
      · rw [if_neg (by simpa using hx), (sec33_nil_iff hb x).mpr (by omega), List.nil_append]
  have hne : ∀ l : List Nat, l.flatMap (sec33 b) = [] ↔ ∀ x ∈ l, 560 ≤ x := by
    intro l
    rw [List.flatMap_eq_nil_iff]
    exact ⟨fun h x hx => (sec33_nil_iff hb x).mp (h x hx), fun h x hx => (sec33_nil_iff hb x).mpr (h x hx)⟩
  refine ⟨fun ts map hc hm => ?_, fun ho => ?_, fun h1 h2 => ?_⟩
  · rw [tsMap_of_chain hc, ← hm] at hget
    have hok : ∀ s r, map = s :: r → (∀ x ∈ map, x < n) → d.getFile n b =
        if map.flatMap (sec33 b) = [] then .ok b else if d.ftype = 4 ∧ b.length ≤ 256 * s + 1 then .error .indexError else .ok (map.flatMap (sec33 b)) := by
      intro s r e hx
      rw [hget, e]
      simp only
      rw [e] at hx
      rw [readPositions_ok _ hx]
      simp only
      rw [hfm]
    refine ⟨?_, ?_, ?_, ?_, ?_⟩
    · rintro ⟨h1, h2⟩
      cases hmap : map with
      | nil => exact absurd hmap h1
      | cons s r =>
        have hs := h2 s (by rw [hmap]; exact List.mem_cons_self ..)
        rw [hok s r hmap (fun x hx => (h2 x hx).1), if_neg ?_, if_neg (by omega), hmap]
        · rfl
        · rw [hne]
          intro h
          have := h s (by rw [hmap]; exact List.mem_cons_self ..)
          omega
    · rintro (h | h)
      · rw [hget, h]
      · rw [hget]
        cases hmap : map with
        | nil => rfl
        | cons s r =>
          simp only
          rw [hmap] at h
          rw [readPositions_error _ h]
    · rintro s r e hx hs ⟨x, hxr, hx5⟩
      rw [hok s r e hx, if_neg ?_]
      · by_cases ht : d.ftype = 4
        · rw [if_pos ⟨ht, by omega⟩, if_pos ht]
        · rw [if_neg (fun h => ht h.1), if_neg ht, hflt]
          rfl
      · rw [hne]
        intro h
        have := h x (by rw [e]; exact List.mem_cons_of_mem _ hxr)
        omega
    · intro s r e hx hs
      rw [hok s r e hx, if_neg ?_, if_neg (by omega), hflt]
      · rfl
      · rw [hne]
        intro h
        have := h s (by rw [e]; exact List.mem_cons_self ..)
        omega
    · intro h1 h2
      cases hmap : map with
      | nil => exact absurd hmap h1
      | cons s r => rw [hok s r hmap (fun x hx => (h2 x hx).1), if_pos ((hne _).mpr fun x hx => (h2 x hx).2)]
  · rw [hget]
    unfold DDirent.tsMap
    rw [tsLoop_of_out ho]
  · rw [hget]
    unfold DDirent.tsMap
    rcases tsLoop_inv (n := n) (b := b) (n + 1) (secOfTS d.track d.sector) with h | ⟨ts, h, _⟩ | ⟨h, _⟩
    · rw [h]
    · exact absurd h (h1 ts)
    · exact absurd h h2

/-- **C75, entries that did not pass the check.** They are not read. -/
theorem C75_not_sane {n : Nat} {b : Bytes} {d : DDirent} (hd : d.isSane = false) : d.getFile n b = .error .invalidDirent := by
  unfold DDirent.getFile
  rw [if_pos (by rw [hd]; decide)]

end Atr
