import Verif.Model.AtariDos
import Verif.Lemmas.Header
import Verif.Lemmas.Alloc
/-! # Reading and writing sectors of Atari images -/
namespace Atr

/-- contents of an ordinary sector -/
def sec (h : AHeader) (b : Bytes) (s : Nat) : Bytes := slice b (h.dpos s) (h.dpos s + h.sectorSize)

/-- an ordinary sector number -/
def AHeader.DataSec (h : AHeader) (s : Nat) : Prop := h.numInitialSectors < s ∧ s ≤ h.maxSectors

theorem AHeader.DataSec.fit {h : AHeader} {n s : Nat} (d : h.DataSec s) (g : h.Geom n) :
    h.dpos s + h.sectorSize ≤ n := by
  have := AHeader.dpos_fit g d.1 d.2
  have := g.fit; omega

theorem length_sec {h : AHeader} {b : Bytes} {s : Nat} (g : h.Geom b.length) (d : h.DataSec s) :
    (sec h b s).length = h.sectorSize := by
  have := d.fit g
  rw [sec, length_slice]; omega

theorem sec_splice_other {h : AHeader} {b v : Bytes} {s t : Nat} (g : h.Geom b.length) (ds : h.DataSec s)
    (dt : h.DataSec t) (hne : s ≠ t) (hv : v.length ≤ h.sectorSize) :
    sec h (splice b (h.dpos t) v) s = sec h b s := by
  have := ds.fit g
  have := dt.fit g
  apply slice_splice_disjoint
  · omega
  · rcases AHeader.dpos_disjoint ds.1 dt.1 hne with h1 | h1
    · left; omega
    · right; omega

theorem sec_splice_same {h : AHeader} {b v : Bytes} {t : Nat} (g : h.Geom b.length) (dt : h.DataSec t)
    (hv : v.length = h.sectorSize) : sec h (splice b (h.dpos t) v) t = v := by
  have := dt.fit g
  unfold sec; rw [← hv]
  exact slice_splice_same _ _ _ (by omega)

/-- sequence of sector writes -/
def writeAll (h : AHeader) : Bytes → List WSector → Bytes
  | b, [] => b
  | b, w :: ws => writeAll h (splice b (h.dpos w.num) w.data) ws

/-- every sector of the list can be written -/
def Writable (h : AHeader) (ws : List WSector) : Prop :=
  ∀ w ∈ ws, h.DataSec w.num ∧ w.data.length = h.sectorSize

theorem length_writeAll {h : AHeader} : ∀ (ws : List WSector) (b : Bytes), h.Geom b.length → Writable h ws →
    (writeAll h b ws).length = b.length := by
  intro ws
  induction ws with
  | nil => intro b _ _; rfl
  | cons w ws ih =>
    intro b g hw
    have h1 := hw w (by simp)
    have := h1.1.fit g
    have hl := length_splice b w.data (h.dpos w.num) (by omega)
    rw [writeAll, ih _ (by rw [hl]; exact g) (fun x hx => hw x (by simp [hx])), hl]

theorem writeSectors_eq : ∀ (ws : List WSector) (m : AImg), m.hdr.Geom m.bytes.length → Writable m.hdr ws →
    AImg.writeSectors ws m = (.ok (), { m with bytes := writeAll m.hdr m.bytes ws }) := by
  intro ws
  induction ws with
  | nil => intro m _ _; rfl
  | cons w ws ih =>
    intro m g hw
    have h1 := hw w (by simp)
    have h2 := h1.1.fit g
    have hp := AHeader.getPos_data g h1.1.1 h1.1.2
    have hl := length_splice m.bytes w.data (m.hdr.dpos w.num) (by omega)
    have ha : assignSlice m.bytes (m.hdr.dpos w.num) (m.hdr.dpos w.num + m.hdr.sectorSize) w.data
        = .ok (splice m.bytes (m.hdr.dpos w.num) w.data) := by
      unfold assignSlice
      rw [if_pos (by omega)]
    simp only [AImg.writeSectors, hp, ha]
    have := ih { m with bytes := splice m.bytes (m.hdr.dpos w.num) w.data } (by simpa [hl] using g)
      (fun x hx => hw x (by simp [hx]))
    simpa [writeAll] using this

theorem sec_writeAll_other {h : AHeader} : ∀ (ws : List WSector) (b : Bytes), h.Geom b.length → Writable h ws →
    ∀ s, h.DataSec s → s ∉ ws.map (·.num) → sec h (writeAll h b ws) s = sec h b s := by
  intro ws
  induction ws with
  | nil => intro b _ _ s _ _; rfl
  | cons w ws ih =>
    intro b g hw s ds hs
    have h1 := hw w (by simp)
    have := h1.1.fit g
    have hl := length_splice b w.data (h.dpos w.num) (by omega)
    simp at hs
    rw [writeAll, ih _ (by rw [hl]; exact g) (fun x hx => hw x (by simp [hx])) s ds (by simpa using hs.2),
      sec_splice_other g ds h1.1 hs.1 (by omega)]

theorem sec_writeAll_mem {h : AHeader} : ∀ (ws : List WSector) (b : Bytes), h.Geom b.length → Writable h ws →
    (ws.map (·.num)).Nodup → ∀ w ∈ ws, sec h (writeAll h b ws) w.num = w.data := by
  intro ws
  induction ws with
  | nil => intro b _ _ _ w hw; simp at hw
  | cons w ws ih =>
    intro b g hw hn x hx
    have h1 := hw w (by simp)
    have := h1.1.fit g
    have hl := length_splice b w.data (h.dpos w.num) (by omega)
    have hn' := List.nodup_cons.mp (by simpa using hn : (w.num :: ws.map (·.num)).Nodup)
    have hw' : Writable h ws := fun x hx => hw x (by simp [hx])
    rw [writeAll]
    rcases List.mem_cons.mp hx with rfl | hx
    · rw [sec_writeAll_other ws _ (by rw [hl]; exact g) hw' _ h1.1 hn'.1, sec_splice_same g h1.1 h1.2]
    · exact ih _ (by rw [hl]; exact g) hw' hn'.2 x hx

/-- bytes in front of all ordinary sectors are not touched -/
theorem slice_writeAll_low {h : AHeader} : ∀ (ws : List WSector) (b : Bytes), h.Geom b.length → Writable h ws →
    ∀ i j, j ≤ h.headerOffset → slice (writeAll h b ws) i j = slice b i j := by
  intro ws
  induction ws with
  | nil => intros; rfl
  | cons w ws ih =>
    intro b g hw i j hj
    have h1 := hw w (by simp)
    have := h1.1.fit g
    have hl := length_splice b w.data (h.dpos w.num) (by omega)
    rw [writeAll, ih _ (by rw [hl]; exact g) (fun x hx => hw x (by simp [hx])) i j hj]
    apply slice_splice_disjoint
    · omega
    · left; unfold AHeader.dpos; omega

/-! ### contiguous sectors -/

theorem moreSize_eq {h : AHeader} {n : Nat} (g : h.Geom n) : ∀ (k s : Nat), h.numInitialSectors ≤ s →
    s + k ≤ h.maxSectors → h.moreSize s k = .ok (k * h.sectorSize) := by
  intro k
  induction k with
  | zero => intro s _ _; simp [AHeader.moreSize]
  | succ k ih =>
    intro s h1 h2
    rw [AHeader.moreSize, AHeader.getPos_data g (by omega) (by omega)]
    simp only
    rw [ih (s + 1) (by omega) (by omega)]
    simp; rw [Nat.add_mul]; omega

theorem getSectors_eq {h : AHeader} {b : Bytes} {n : Nat} (g : h.Geom n) {s t : Nat} (h1 : h.numInitialSectors < s)
    (hst : s ≤ t) (h2 : t ≤ h.maxSectors) :
    h.getSectors b s t = .ok (slice b (h.dpos s) (h.dpos s + (t - s + 1) * h.sectorSize)) := by
  unfold AHeader.getSectors AHeader.getSectorSlice
  rw [AHeader.getPos_data g h1 (by omega)]
  simp only
  rw [moreSize_eq g _ _ (by omega) (by omega)]
  simp; congr 1; rw [Nat.add_mul]; omega

theorem getSectors_one {h : AHeader} {b : Bytes} {n : Nat} (g : h.Geom n) {s : Nat} (d : h.DataSec s) :
    h.getSectors b s s = .ok (sec h b s) := by
  rw [getSectors_eq g d.1 (Nat.le_refl _) d.2]
  simp [sec]

theorem getContiguous_one {h : AHeader} {n : Nat} (g : h.Geom n) {s : Nat} (d : h.DataSec s) :
    h.getContiguous s 1 = .ok (h.dpos s, h.sectorSize) := by
  simp [AHeader.getContiguous, AHeader.getContiguous.go, AHeader.getPos_data g d.1 d.2]

theorem dpos_succ (h : AHeader) (s : Nat) (h1 : h.numInitialSectors < s) : h.dpos (s + 1) = h.dpos s + h.sectorSize := by
  unfold AHeader.dpos
  rw [show s + 1 - 1 - h.numInitialSectors = (s - 1 - h.numInitialSectors) + 1 by omega, Nat.add_mul]
  omega

theorem dpos_add (h : AHeader) (s k : Nat) (h1 : h.numInitialSectors < s) : h.dpos (s + k) = h.dpos s + k * h.sectorSize := by
  induction k with
  | zero => simp
  | succ k ih => rw [← Nat.add_assoc, dpos_succ h _ (by omega), ih, Nat.add_mul]; omega

/-- consecutive sectors are adjacent -/
theorem slice_sectors {h : AHeader} {b : Bytes} (g : h.Geom b.length) : ∀ (k s : Nat), h.numInitialSectors < s → s + k ≤ h.maxSectors + 1 →
    slice b (h.dpos s) (h.dpos s + k * h.sectorSize) = (List.range' s k).flatMap (sec h b) := by
  intro k
  induction k with
  | zero => intro s _ _; simp [slice]
  | succ k ih =>
    intro s h1 h2
    have hd : h.DataSec s := ⟨h1, by omega⟩
    have := hd.fit g
    rw [List.range'_succ, List.flatMap_cons, ← ih (s + 1) (by omega) (by omega), dpos_succ h s h1, sec,
      slice_append_slice _ _ _ _ (by omega) (by omega) (by omega)]
    congr 1; rw [Nat.add_mul]; omega

/-! ### calc_sectors -/

theorem addData_fits (s : WSector) (d : Bytes) (h : s.ptr + d.length ≤ s.size) :
    s.addData d = ({ s with data := splice s.data s.ptr d, ptr := s.ptr + d.length, used := s.used + d.length }, []) := by
  unfold WSector.addData
  simp [show ¬ s.size < s.ptr + d.length by omega]

theorem addData_full (s : WSector) (d : Bytes) (h : s.ptr = s.size) (hd : 0 < d.length) (hl : s.data.length = s.size) :
    s.addData d = (s, d) := by
  unfold WSector.addData
  simp [h, hd, splice]
  rw [← hl]
  cases s; simp at *; omega

theorem ofData_data (size : Nat) (d : Bytes) (h : d.length ≤ size) :
    (WSector.ofData size d).data = d ++ List.replicate (size - d.length) 0 ∧ (WSector.ofData size d).used = d.length ∧
    (WSector.ofData size d).size = size := by
  unfold WSector.ofData WSector.blank
  rw [addData_fits _ _ (by simpa using h)]
  simp [splice]

end Atr
