import Verif.Spec.Xex
import Verif.Lemmas.Header
/-!
# C19, C20: Apple II binary files (`BSAVE`)
-/
namespace Atr

/-- the segment covers address `a` -/
def Seg.Covers (s : Seg) (a : Nat) : Prop := s.origin ≤ a ∧ a < s.origin + s.data.length

theorem bsaveOrigin_acc : ∀ (segs : List Seg) (o : Nat), (segs.foldl (fun o s => min o s.origin) o ≤ o) ∧
    (∀ s ∈ segs, segs.foldl (fun o s => min o s.origin) o ≤ s.origin) ∧
    (segs.foldl (fun o s => min o s.origin) o = o ∨ ∃ s ∈ segs, s.origin = segs.foldl (fun o s => min o s.origin) o) := by
  intro segs
  induction segs with
  | nil => intro o; exact ⟨Nat.le_refl _, fun s h => (nomatch h), Or.inl rfl⟩
  | cons t segs ih =>
    intro o
    obtain ⟨h1, h2, h3⟩ := ih (min o t.origin)
    rw [List.foldl_cons]
    refine ⟨by omega, ?_, ?_⟩
    · intro s hs
      rcases List.mem_cons.mp hs with rfl | hs
      · omega
      · exact h2 s hs
    · rcases h3 with h3 | ⟨s, hs, h3⟩
      · by_cases hm : o ≤ t.origin
        · left; omega
        · right; exact ⟨t, List.mem_cons_self, by omega⟩
      · right; exact ⟨s, List.mem_cons_of_mem _ hs, h3⟩

theorem bsaveLast_acc : ∀ (segs : List Seg) (o : Nat),
    o ≤ segs.foldl (fun l s => max l (s.origin + s.data.length)) o ∧
    (∀ s ∈ segs, s.origin + s.data.length ≤ segs.foldl (fun l s => max l (s.origin + s.data.length)) o) ∧
    (segs.foldl (fun l s => max l (s.origin + s.data.length)) o = o ∨
      ∃ s ∈ segs, s.origin + s.data.length = segs.foldl (fun l s => max l (s.origin + s.data.length)) o) := by
  intro segs
  induction segs with
  | nil => intro o; exact ⟨Nat.le_refl _, fun s h => (nomatch h), Or.inl rfl⟩
  | cons t segs ih =>
    intro o
    obtain ⟨h1, h2, h3⟩ := ih (max o (t.origin + t.data.length))
    rw [List.foldl_cons]
    refine ⟨by omega, ?_, ?_⟩
    · intro s hs
      rcases List.mem_cons.mp hs with rfl | hs
      · omega
      · exact h2 s hs
    · rcases h3 with h3 | ⟨s, hs, h3⟩
      · by_cases hm : t.origin + t.data.length ≤ o
        · left; omega
        · right; exact ⟨t, List.mem_cons_self, by omega⟩
      · right; exact ⟨s, List.mem_cons_of_mem _ hs, h3⟩

/-- lowest origin and highest end of a list of segments -/
structure Extent (segs : List Seg) (lo hi : Nat) : Prop where
  low : ∀ s ∈ segs, lo ≤ s.origin
  lowHit : ∃ s ∈ segs, s.origin = lo
  high : ∀ s ∈ segs, s.origin + s.data.length ≤ hi
  highHit : ∃ s ∈ segs, s.origin + s.data.length = hi

theorem extent_unique {segs lo hi lo' hi'} (h : Extent segs lo hi) (h' : Extent segs lo' hi') : lo = lo' ∧ hi = hi' := by
  obtain ⟨s, h1, h2⟩ := h.lowHit
  obtain ⟨t, t1, t2⟩ := h'.lowHit
  obtain ⟨u, u1, u2⟩ := h.highHit
  obtain ⟨v, v1, v2⟩ := h'.highHit
  have := h.low t t1; have := h'.low s h1; have := h.high v v1; have := h'.high u u1
  omega

theorem bsave_extent {segs : List Seg} (hne : segs ≠ []) (ho : ∀ s ∈ segs, s.origin < 65536) :
    Extent segs (bsaveOrigin segs) (bsaveLast segs) := by
  obtain ⟨_, h2, h3⟩ := bsaveOrigin_acc segs 100000000
  obtain ⟨_, k2, k3⟩ := bsaveLast_acc segs 0
  refine ⟨h2, ?_, k2, ?_⟩
  · rcases h3 with h3 | h3
    · cases segs with
      | nil => exact absurd rfl hne
      | cons s segs =>
        have := h2 s List.mem_cons_self
        have := ho s List.mem_cons_self
        omega
    · exact h3
  · rcases k3 with k3 | k3
    · cases segs with
      | nil => exact absurd rfl hne
      | cons s segs =>
        have := k2 s List.mem_cons_self
        exact ⟨s, List.mem_cons_self, by unfold bsaveLast; omega⟩
    · exact k3

/-- copying the segments: each byte is decided by the last segment that covers it -/
theorem bsaveFill_get (o : Int) : ∀ (segs : List Seg) (im : Bytes),
    (∀ s ∈ segs, o ≤ s.origin ∧ ((s.origin : Int) - o + 4).toNat + s.data.length ≤ im.length) →
    (bsaveFill o segs im).length = im.length ∧
    ∀ k, (bsaveFill o segs im)[k]? =
      match segs.reverse.find? (fun s => ((s.origin : Int) - o + 4).toNat ≤ k && k < ((s.origin : Int) - o + 4).toNat + s.data.length) with
      | some s => s.data[k - ((s.origin : Int) - o + 4).toNat]?
      | none => im[k]? := by
  intro segs
  induction segs with
  | nil => intro im _; exact ⟨rfl, fun k => rfl⟩
  | cons s segs ih =>
    intro im h
    obtain ⟨h1, h2⟩ := h s List.mem_cons_self
    generalize hp : ((s.origin : Int) - o + 4).toNat = p at h2
    have hlen := length_splice im s.data p h2
    obtain ⟨k1, k2⟩ := ih (splice im p s.data) (fun t ht => by rw [hlen]; exact h t (List.mem_cons_of_mem _ ht))
    unfold bsaveFill
    rw [hp]
    refine ⟨k1.trans hlen, fun k => ?_⟩
    rw [k2 k, List.reverse_cons, List.find?_append]
    cases hf : segs.reverse.find? (fun s => ((s.origin : Int) - o + 4).toNat ≤ k && k < ((s.origin : Int) - o + 4).toNat + s.data.length) with
    | some t => rfl
    | none =>
      simp only [Option.none_or]
      rw [List.find?_cons, hp]
      rw [getElem?_splice im s.data p k h2]
      by_cases hc : p ≤ k ∧ k < p + s.data.length
      · rw [show (decide (p ≤ k) && decide (k < p + s.data.length)) = true by simp [hc]]
        simp only [hp]
        split
        · omega
        · split
          · rfl
          · omega
      · rw [show (decide (p ≤ k) && decide (k < p + s.data.length)) = false by
          simp only [Bool.and_eq_false_iff, decide_eq_false_iff_not]; omega]
        simp only [List.find?_nil]
        split
        · rfl
        · split
          · omega
          · rfl

/-- the whole result of `get_bsave` once the header, the jump and the range are fixed -/
theorem bsave_build {segs : List Seg} {lo hi : Nat} (he : Extent segs lo hi) (jump : Bytes) (o : Int) (ho : o = (lo : Int) - jump.length) :
    bsaveFill o segs (splice (enc16 (o % 65536).toNat ++ enc16 (((hi : Int) - o) % 65536).toNat ++
        List.replicate ((hi : Int) - o).toNat 0) 4 jump) =
      enc16 (o % 65536).toNat ++ enc16 (((hi : Int) - o) % 65536).toNat ++ jump ++
        (List.range (hi - lo)).map (fun i => memAt segs (lo + i)) := by
  have hlohi : lo ≤ hi := by
    obtain ⟨s, h1, h2⟩ := he.highHit
    have := he.low s h1; omega
  have hsz : ((hi : Int) - o).toNat = (hi - lo) + jump.length := by omega
  generalize hh : enc16 (o % 65536).toNat ++ enc16 (((hi : Int) - o) % 65536).toNat = hd
  have hhl : hd.length = 4 := by rw [← hh]; rfl
  rw [hsz]
  have hsp : splice (hd ++ List.replicate (hi - lo + jump.length) 0) 4 jump = hd ++ jump ++ List.replicate (hi - lo) 0 := by
    unfold splice
    rw [← hhl, List.take_left, List.drop_append, List.drop_eq_nil_of_le (by omega), List.nil_append, List.drop_replicate]
    rw [show hi - lo + jump.length - (hd.length + jump.length - hd.length) = hi - lo by omega]
  rw [hsp]
  have hlen : (hd ++ jump ++ List.replicate (hi - lo) (0 : UInt8)).length = 4 + jump.length + (hi - lo) := by simp [hhl, Nat.add_assoc]
  have hfit : ∀ s ∈ segs, o ≤ s.origin ∧ ((s.origin : Int) - o + 4).toNat + s.data.length ≤ (hd ++ jump ++ List.replicate (hi - lo) (0 : UInt8)).length := by
    intro s hs
    have := he.low s hs; have := he.high s hs
    rw [hlen]; omega
  obtain ⟨k1, k2⟩ := bsaveFill_get o segs _ hfit
  apply List.ext_getElem?
  intro k
  rw [k2 k]
  by_cases hk : k < 4 + jump.length
  · rw [List.find?_eq_none.mpr (by
      intro s hs
      have := he.low s (List.mem_reverse.mp hs)
      simp only [Bool.and_eq_true, decide_eq_true_eq, not_and]; omega)]
    simp only
    have hk' : k < (hd ++ jump).length := by simp [hhl]; exact hk
    rw [List.getElem?_append_left (l₁ := hd ++ jump) hk', List.getElem?_append_left (l₁ := hd ++ jump) hk']
  · have hjl : (hd ++ jump).length = 4 + jump.length := by simp [hhl]
    rw [List.getElem?_append_right (by omega : (hd ++ jump).length ≤ k) (l₂ := List.map _ _)]
    rw [hjl, List.getElem?_map]
    have hcov : ∀ s ∈ segs.reverse, (decide (((s.origin : Int) - o + 4).toNat ≤ k) && decide (k < ((s.origin : Int) - o + 4).toNat + s.data.length)) =
        (decide (s.origin ≤ lo + (k - (4 + jump.length))) && decide (lo + (k - (4 + jump.length)) < s.origin + s.data.length)) := by
      intro s hs
      have := he.low s (List.mem_reverse.mp hs)
      congr 1 <;> apply decide_eq_decide.mpr <;> omega
    have hfind : segs.reverse.find? (fun s => decide (((s.origin : Int) - o + 4).toNat ≤ k) && decide (k < ((s.origin : Int) - o + 4).toNat + s.data.length)) =
        segs.reverse.find? (fun s => decide (s.origin ≤ lo + (k - (4 + jump.length))) && decide (lo + (k - (4 + jump.length)) < s.origin + s.data.length)) := by
      generalize segs.reverse = L at hcov
      induction L with
      | nil => rfl
      | cons s L ih =>
        rw [List.find?_cons, List.find?_cons, hcov s List.mem_cons_self, ih (fun t ht => hcov t (List.mem_cons_of_mem _ ht))]
    rw [hfind]
    unfold memAt
    cases hf : segs.reverse.find? (fun s => decide (s.origin ≤ lo + (k - (4 + jump.length))) && decide (lo + (k - (4 + jump.length)) < s.origin + s.data.length)) with
    | none =>
      simp only
      rw [List.getElem?_append_right (by omega), hjl, List.getElem?_replicate]
      by_cases hr : k - (4 + jump.length) < hi - lo
      · rw [if_pos hr, List.getElem?_range hr]
        simp only [Option.map_some, hf]
      · rw [if_neg hr, List.getElem?_eq_none (by simp; omega)]; rfl
    | some s =>
      have hmem := List.mem_reverse.mp (List.mem_of_find?_eq_some hf)
      have hc := List.find?_some hf
      simp only [Bool.and_eq_true, decide_eq_true_eq] at hc
      have := he.low s hmem; have := he.high s hmem
      have hr : k - (4 + jump.length) < hi - lo := by omega
      rw [List.getElem?_range hr]
      simp only [Option.map_some, hf]
      rw [show k - ((s.origin : Int) - o + 4).toNat = lo + (k - (4 + jump.length)) - s.origin by omega]
      rw [List.getD_eq_getElem?_getD]
      have hlt : lo + (k - (4 + jump.length)) - s.origin < s.data.length := by omega
      rw [List.getElem?_eq_getElem hlt]; rfl

/-- the memory image of the segments from `lo` up to `hi` -/
def memImage (segs : List Seg) (lo hi : Nat) : Bytes := (List.range (hi - lo)).map fun i => memAt segs (lo + i)

/-- **C19**, no jump needed (no run address, run address 0, or run address = lowest origin): header with load address and
length, then the memory image: at every address the last segment covering it decides, zero where there is none. -/
theorem C19_plain {segs : List Seg} {runAddr : Option Nat} {lo hi : Nat} (he : Extent segs lo hi) (ho : ∀ s ∈ segs, s.origin < 65536)
    (hr : runAddr = none ∨ runAddr = some 0 ∨ runAddr = some lo) :
    getBsave segs runAddr = .ok (enc16 lo ++ enc16 (hi - lo) ++ memImage segs lo hi) := by
  have hne : segs ≠ [] := by
    obtain ⟨s, h, _⟩ := he.lowHit
    exact List.ne_nil_of_mem h
  obtain ⟨h1, h2⟩ := extent_unique he (bsave_extent hne ho)
  have hlohi : lo ≤ hi := by
    obtain ⟨s, h1, h2⟩ := he.highHit
    have := he.low s h1; omega
  have hlo : lo < 65536 := by
    obtain ⟨s, h1, h2⟩ := he.lowHit
    have := ho s h1; omega
  have key := bsave_build he [] lo (by simp)
  have hsp : ∀ im : Bytes, splice im 4 [] = im := by intro im; unfold splice; simp
  have henc : ∀ n : Nat, enc16 (((n : Int)) % 65536).toNat = enc16 n := by
    intro n
    rw [show ((n : Int) % 65536).toNat = n % 65536 by omega]
    unfold enc16
    congr 1
    · apply UInt8.toNat_inj.mp; rw [toNat_ofNat, toNat_ofNat]; omega
    · congr 1; apply UInt8.toNat_inj.mp; rw [toNat_ofNat, toNat_ofNat]; omega
  rw [show (hi : Int) - (lo : Int) = ((hi - lo : Nat) : Int) by omega, henc, henc, List.append_nil] at key
  have hb : ∀ r : Option Nat, (r = none ∨ r = some 0 ∨ r = some lo) → getBsave segs r =
      .ok (bsaveFill lo segs (splice (enc16 ((lo : Int) % 65536).toNat ++ enc16 (((hi - lo : Nat) : Int) % 65536).toNat ++
        List.replicate ((hi - lo : Nat) : Int).toNat 0) 4 [])) := by
    intro r hr
    unfold getBsave
    rw [← h1, ← h2]
    rcases hr with rfl | rfl | rfl
    · simp only [if_neg hne]
      rw [show (hi : Int) - (lo : Int) = ((hi - lo : Nat) : Int) by omega]
    · simp only [if_neg hne]
      rw [show (hi : Int) - (lo : Int) = ((hi - lo : Nat) : Int) by omega]
    · cases lo with
      | zero =>
        simp only [if_neg hne]
        rw [show (hi : Int) - ((0 : Nat) : Int) = ((hi - 0 : Nat) : Int) by omega]
      | succ lo =>
        simp only [if_neg hne, ne_eq, not_true_eq_false, if_false]
        rw [show (hi : Int) - ((lo + 1 : Nat) : Int) = ((hi - (lo + 1) : Nat) : Int) by omega]
  rw [hb runAddr hr, henc, henc, key]
  rfl

theorem bsave_jump {segs : List Seg} {a lo hi : Nat} (he : Extent segs lo hi) (ho : ∀ s ∈ segs, s.origin < 65536)
    (ha0 : a ≠ 0) (hal : a ≠ lo) (hin : ∃ s ∈ segs, s.Covers a) :
    getBsave segs (some a) =
      .ok (enc16 ((lo + 65533) % 65536) ++ enc16 (hi - lo + 3) ++ [0x4c, UInt8.ofNat a, UInt8.ofNat (a / 256)] ++ memImage segs lo hi) := by
  have hne : segs ≠ [] := by
    obtain ⟨s, h, _⟩ := he.lowHit
    exact List.ne_nil_of_mem h
  obtain ⟨h1, h2⟩ := extent_unique he (bsave_extent hne ho)
  have hlohi : lo ≤ hi := by
    obtain ⟨s, h1, h2⟩ := he.highHit
    have := he.low s h1; omega
  have key := bsave_build he [0x4c, UInt8.ofNat a, UInt8.ofNat (a / 256)] ((lo : Int) - 3) (by simp)
  have hlo : lo < 65536 := by
    obtain ⟨s, h1, h2⟩ := he.lowHit
    have := ho s h1; omega
  have henc : ∀ (z : Int) (n : Nat), z = n → enc16 (z % 65536).toNat = enc16 n := by
    intro z n hz
    rw [hz, show ((n : Int) % 65536).toNat = n % 65536 by omega]
    unfold enc16
    congr 1
    · apply UInt8.toNat_inj.mp; rw [toNat_ofNat, toNat_ofNat]; omega
    · congr 1; apply UInt8.toNat_inj.mp; rw [toNat_ofNat, toNat_ofNat]; omega
  have hany : segs.any (·.has a) = true := by
    obtain ⟨s, hs, hc⟩ := hin
    rw [List.any_eq_true]
    exact ⟨s, hs, by unfold Seg.has; simp [hc.1, hc.2]⟩
  unfold getBsave
  rw [← h1, ← h2]
  cases a with
  | zero => exact absurd rfl ha0
  | succ a =>
    simp only [if_neg hne]
    rw [if_pos hal, if_pos hany, key, show (((lo : Int) - 3) % 65536).toNat = (lo + 65533) % 65536 by omega, henc _ (hi - lo + 3) (by omega)]
    rfl

/-- **C19** with a run address other than the lowest origin: a `JMP` to it is put in front (three bytes below the lowest
origin) and the rest is the memory image. -/
theorem C19_jump {segs : List Seg} {a lo hi : Nat} (he : Extent segs lo hi) (ho : ∀ s ∈ segs, s.origin < 65536)
    (hlo3 : 3 ≤ lo) (ha0 : a ≠ 0) (hal : a ≠ lo) (hin : ∃ s ∈ segs, s.Covers a) :
    getBsave segs (some a) =
      .ok (enc16 (lo - 3) ++ enc16 (hi - lo + 3) ++ [0x4c, UInt8.ofNat a, UInt8.ofNat (a / 256)] ++ memImage segs lo hi) := by
  have hlo : lo < 65536 := by
    obtain ⟨s, h1, h2⟩ := he.lowHit
    have := ho s h1; omega
  rw [bsave_jump he ho ha0 hal hin, show (lo + 65533) % 65536 = lo - 3 by omega]

/-- The condition on the lowest origin is needed: below 3 there is no room for the jump and the load address in the header
wraps around to the top of memory, so every byte of the program would be loaded 65536 bytes too high. -/
theorem C19_jump_wraps {segs : List Seg} {a lo hi : Nat} (he : Extent segs lo hi) (ho : ∀ s ∈ segs, s.origin < 65536)
    (hlo3 : lo < 3) (ha0 : a ≠ 0) (hal : a ≠ lo) (hin : ∃ s ∈ segs, s.Covers a) :
    getBsave segs (some a) =
      .ok (enc16 (lo + 65533) ++ enc16 (hi - lo + 3) ++ [0x4c, UInt8.ofNat a, UInt8.ofNat (a / 256)] ++ memImage segs lo hi) := by
  rw [bsave_jump he ho ha0 hal hin, show (lo + 65533) % 65536 = lo + 65533 by omega]

/-- a run address outside all segments is refused -/
theorem C19_bad_run {segs : List Seg} {a lo hi : Nat} (he : Extent segs lo hi) (ho : ∀ s ∈ segs, s.origin < 65536)
    (ha0 : a ≠ 0) (hal : a ≠ lo) (hout : ∀ s ∈ segs, ¬ s.Covers a) : getBsave segs (some a) = .error .invalidBinaryFile := by
  have hne : segs ≠ [] := by
    obtain ⟨s, h, _⟩ := he.lowHit
    exact List.ne_nil_of_mem h
  obtain ⟨h1, h2⟩ := extent_unique he (bsave_extent hne ho)
  have hany : ¬ segs.any (·.has a) = true := by
    rw [List.any_eq_true]
    rintro ⟨s, hs, hc⟩
    unfold Seg.has at hc
    simp only [Bool.and_eq_true, decide_eq_true_eq] at hc
    exact hout s hs hc
  unfold getBsave
  rw [← h1]
  cases a with
  | zero => exact absurd rfl ha0
  | succ a =>
    simp only
    rw [if_pos hal, if_neg hany]

/-- the byte at an address, in words: covered by a last segment … -/
theorem memAt_last {segs pre post : List Seg} {s : Seg} {a : Nat} (h : segs = pre ++ s :: post) (hs : s.Covers a)
    (hp : ∀ t ∈ post, ¬ t.Covers a) : memAt segs a = s.data.getD (a - s.origin) 0 := by
  unfold memAt
  have hpost : post.reverse.find? (fun s => s.origin ≤ a && a < s.origin + s.data.length) = none := by
    rw [List.find?_eq_none]
    intro t ht
    have := hp t (List.mem_reverse.mp ht)
    unfold Seg.Covers at this
    simpa using this
  have hthis : ((decide (s.origin ≤ a)) && decide (a < s.origin + s.data.length)) = true := by
    simp [hs.1, hs.2]
  rw [h, List.reverse_append, List.reverse_cons, List.append_assoc, List.find?_append, hpost, Option.none_or,
    List.find?_append, List.find?_cons, hthis]
  rfl

/-- … or by none -/
theorem memAt_none {segs : List Seg} {a : Nat} (hp : ∀ t ∈ segs, ¬ t.Covers a) : memAt segs a = 0 := by
  unfold memAt
  rw [List.find?_eq_none.mpr (by
    intro t ht
    have := hp t (List.mem_reverse.mp ht)
    unfold Seg.Covers at this
    simpa using this)]

/-- overlapping segments, a gap, and a jump -/
example : getBsave [⟨0x2000, [1, 2, 3]⟩, ⟨0x2002, [9]⟩, ⟨0x2005, [5]⟩] none =
    .ok [0x00, 0x20, 6, 0, 1, 2, 9, 0, 0, 5] ∧
  getBsave [⟨0x2000, [1, 2, 3]⟩] (some 0x2001) = .ok [0xfd, 0x1f, 6, 0, 0x4c, 0x01, 0x20, 1, 2, 3] := by decide +kernel

/-! ### C20 -/

theorem memImage_length (segs : List Seg) (lo hi : Nat) : (memImage segs lo hi).length = hi - lo := by
  unfold memImage; simp

theorem parseBsave_enc {lo : Nat} {d : Bytes} (hlo : lo < 65536) (hd : d.length < 65536) :
    parseBsave (enc16 lo ++ enc16 d.length ++ d) = .ok ⟨lo, d⟩ := by
  have e1 := le16_enc lo
  have e2 := le16_enc d.length
  rw [Nat.mod_eq_of_lt hlo] at e1
  rw [Nat.mod_eq_of_lt hd] at e2
  show parseBsave (_ :: _ :: _ :: _ :: d) = _
  unfold parseBsave
  simp only
  rw [e1, e2]
  rw [if_neg (by simp), List.take_length, if_pos rfl]

/-- **C20.** Parsing the BSAVE file gives one segment: the load address and the memory image (with the jump in front if
there is one), for all segments spanning less than 64 KiB. -/
theorem C20_roundtrip {segs : List Seg} {runAddr : Option Nat} {lo hi : Nat} (he : Extent segs lo hi) (ho : ∀ s ∈ segs, s.origin < 65536)
    (hr : runAddr = none ∨ runAddr = some 0 ∨ runAddr = some lo) (hsize : hi - lo < 65536) :
    ∃ x, getBsave segs runAddr = .ok x ∧ parseBsave x = .ok ⟨lo, memImage segs lo hi⟩ := by
  refine ⟨_, C19_plain he ho hr, ?_⟩
  have hlo : lo < 65536 := by
    obtain ⟨s, h1, h2⟩ := he.lowHit
    have := ho s h1; omega
  have := parseBsave_enc hlo (d := memImage segs lo hi) (by rw [memImage_length]; exact hsize)
  rw [memImage_length] at this
  exact this

theorem C20_roundtrip_jump {segs : List Seg} {a lo hi : Nat} (he : Extent segs lo hi) (ho : ∀ s ∈ segs, s.origin < 65536)
    (hlo3 : 3 ≤ lo) (ha0 : a ≠ 0) (hal : a ≠ lo) (hin : ∃ s ∈ segs, s.Covers a) (hsize : hi - lo + 3 < 65536) :
    ∃ x, getBsave segs (some a) = .ok x ∧
      parseBsave x = .ok ⟨lo - 3, [0x4c, UInt8.ofNat a, UInt8.ofNat (a / 256)] ++ memImage segs lo hi⟩ := by
  refine ⟨_, C19_jump he ho hlo3 ha0 hal hin, ?_⟩
  have hlo : lo < 65536 := by
    obtain ⟨s, h1, h2⟩ := he.lowHit
    have := ho s h1; omega
  have := parseBsave_enc (lo := lo - 3) (by omega) (d := [0x4c, UInt8.ofNat a, UInt8.ofNat (a / 256)] ++ memImage segs lo hi)
    (by rw [List.length_append, memImage_length]; simp; omega)
  rw [List.length_append, memImage_length, show [(0x4c : UInt8), UInt8.ofNat a, UInt8.ofNat (a / 256)].length + (hi - lo) = hi - lo + 3 by simp; omega] at this
  rw [List.append_assoc]
  exact this

/-- the size limit is sharp: if all 64 KiB are covered the length field is 0 and the file is rejected -/
theorem C20_full_64k_fails {segs : List Seg} (he : Extent segs 0 65536) (ho : ∀ s ∈ segs, s.origin < 65536) :
    ∃ x, getBsave segs none = .ok x ∧ parseBsave x = .error .invalidBinaryFile := by
  refine ⟨_, C19_plain he ho (Or.inl rfl), ?_⟩
  have hl := memImage_length segs 0 65536
  generalize memImage segs 0 65536 = d at hl
  have hd : enc16 (65536 - 0) = [0, 0] := by decide
  rw [hd]
  show parseBsave (_ :: _ :: 0 :: 0 :: d) = _
  unfold parseBsave
  simp only [List.length_cons, hl]
  rfl

example : ∃ segs, Extent segs 0x2000 0x2004 ∧ ∀ s ∈ segs, s.origin < 65536 :=
  ⟨[⟨0x2000, [1, 2]⟩, ⟨0x2003, [3]⟩], ⟨by decide, by decide, by decide, by decide⟩, by decide⟩
example : ∃ segs, Extent segs 0 65536 ∧ ∀ s ∈ segs, s.origin < 65536 := by
  refine ⟨[⟨0, [1]⟩, ⟨65535, [3]⟩], ⟨by decide, by decide, by decide, by decide⟩, by decide⟩

end Atr
