import Verif.Model.Savers
import Verif.Props.Segments
import Verif.Props.Bsave
import Verif.Props.DetectOther
/-! # C102: saving a segment -/
namespace Atr

/-- **C102, raw data.** The raw file of a segment holds, in order, the bytes at the positions of the segment, however the segment was
cut out and reordered. -/
theorem C102_raw {n : Nat} {t : Nest} {v : SegView} {ps : List Nat} (hb : t.build n = .ok v) (hp : t.pos n = some ps) {a : Bytes} (ha : a.length = n) :
    (saveRaw v a).length = ps.length ∧ ∀ (i p : Nat), ps[i]? = some p → (saveRaw v a)[i]? = a[p]? := by
  rcases t.build_spec n with ⟨w, ps', h1, h2, h3, h4, h5⟩ | ⟨h1, _⟩
  · rw [hb] at h1; cases h1
    rw [hp] at h2; cases h2
    subst h3
    refine ⟨?_, fun i p h => ?_⟩
    · rw [v.length_positions]
      exact SegView.length_read h4 (by rw [ha, h5])
    · unfold saveRaw
      rw [SegView.read_get h4 (by rw [ha, h5]), h]
      rfl
  · rw [hb] at h1; cases h1

theorem origin_bytes {o : Int} (h0 : 0 ≤ o) (h1 : o < 65536) : (o % 65536).toNat = o.toNat := by omega

/-- **C102, BSAVE.** A segment of less than 65536 bytes saved for the Apple ][ is read back with its bytes and, if its address has 16 bits,
its address. -/
theorem C102_bsave {v : SegView} {a : Bytes} (o : Int) (hl : (v.read a).length < 65536) :
    parseBsave (saveBsave v o a) = .ok ⟨(o % 65536).toNat, v.read a⟩ ∧
    (0 ≤ o → o < 65536 → parseBsave (saveBsave v o a) = .ok ⟨o.toNat, v.read a⟩) := by
  have h : parseBsave (saveBsave v o a) = .ok ⟨(o % 65536).toNat, v.read a⟩ := by
    unfold saveBsave
    simp only
    rw [Nat.mod_eq_of_lt hl]
    exact parseBsave_enc (by omega) hl
  refine ⟨h, fun h0 h1 => ?_⟩
  rw [h, origin_bytes h0 h1]

/-- **C102, refuted.** Saving a longer segment works, too, but nothing can read the file: the length has wrapped. -/
theorem C102_refuted_long {v : SegView} {a : Bytes} (o : Int) (hl : 65536 ≤ (v.read a).length) :
    parseBsave (saveBsave v o a) = .error .invalidBinaryFile := by
  unfold saveBsave parseBsave enc16
  simp only [List.cons_append, List.nil_append]
  rw [if_pos]
  rw [le16_enc]
  simp only [List.length_cons]
  omega

/-- **C102, recognised.** The file is recognised as what it is, unless its address or its length look like the mark of something else: an
executable (0xffff), an ATR header (0x0296), a container, an archive or an entry of the signature database; or its first bytes like a
SpartaDOS boot sector. -/
theorem C102_detected_partial {L : Libs} {v : SegView} {a : Bytes} {o : Int} (hl : (v.read a).length < 65536) (h0 : 0 ≤ o) (h1 : o < 65536)
    (hx : o ≠ 0xffff) (hm : o ≠ 0x0296) (hp : L.Plain (saveBsave v o a)) (hz : L.zip (saveBsave v o a) = .ok none)
    (hs : ∀ h, openHeader (saveBsave v o a) = .ok h → 1 ≤ h.maxSectors → ¬ SpartaLike h (saveBsave v o a)) :
    ∃ t, detect L (saveBsave v o a) = .ok (.bin ⟨o.toNat, v.read a⟩, t) := by
  have hb := (bsaveFile_iff _ _).mp ((C102_bsave o hl).2 h0 h1)
  generalize hf : saveBsave v o a = f at *
  have hlen : f.length = (v.read a).length + 4 := by
    rw [← hf]; unfold saveBsave enc16; simp
  have hfst : ∃ r, f = UInt8.ofNat o.toNat :: UInt8.ofNat (o.toNat / 256) :: UInt8.ofNat ((v.read a).length) :: UInt8.ofNat ((v.read a).length / 256) :: r := by
    rw [← hf]; unfold saveBsave enc16; simp only [origin_bytes h0 h1, Nat.mod_eq_of_lt hl]
    exact ⟨_, rfl⟩
  obtain ⟨r, hr⟩ := hfst
  have two : ∀ x y : UInt8, f.take 2 = [x, y] → o = le16 x y := by
    intro x y h
    rw [hr] at h
    simp only [List.take_succ_cons, List.take_zero, List.cons.injEq, and_true] at h
    rw [← h.1, ← h.2, le16_enc]
    omega
  have d : OtherFile L f := by
    refine ⟨hp, fun h => hm (two _ _ h.2), fun h => ?_, hs, hz⟩
    simp only [xfdSizes, List.mem_cons, List.not_mem_nil, or_false] at h
    omega
  refine (C71_rest d ?_ ?_ (by omega)).1 _ hb
  · rintro l ⟨h | ⟨q, h⟩, _⟩
    · omega
    · exact hx (two 0xff 0xff (by rw [h]; rfl))
  · rintro t five ⟨hc, _, c, _, _, _, h⟩
    have := hc.2
    rw [hr] at this
    simp only [List.take_succ_cons, List.take_zero, List.cons.injEq, and_true] at this
    have e := le16_enc (v.read a).length
    rw [this.2.2.1, this.2.2.2] at e
    have : le16 0x52 0x54 = 21586 := rfl
    omega

/-- **C102, refuted: recognition.** A segment saved at 0xffff is taken for an executable, although it is a BSAVE file as well. -/
theorem C102_refuted_executable : ∃ b, saveBsave (.part 9 3 2) 0xffff [9, 9, 9, 5, 0, 9, 9, 9, 9] = b ∧ parseBsave b = .ok ⟨0xffff, [5, 0]⟩ ∧
    ∃ l t, detect magicLibs b = .ok (.xex l, t) := by
  refine ⟨_, rfl, rfl, ?_⟩
  obtain ⟨t, h⟩ := C71_xex (b := [0xff, 0xff, 2, 0, 5, 0]) (other_small (by decide) (by decide)) ⟨Or.inr ⟨_, rfl⟩, .marker (.cut (d := []) (by decide) (by decide) (by decide))⟩
  exact ⟨_, t, h⟩

/-- three bytes of a reordered segment, saved raw and at 0x0800 -/
example : saveRaw (.order 5 [4, 0, 2]) [10, 11, 12, 13, 14] = [14, 10, 12] := rfl
example : parseBsave (saveBsave (.order 5 [4, 0, 2]) 0x800 [10, 11, 12, 13, 14]) = .ok ⟨0x800, [14, 10, 12]⟩ := rfl
example : ∃ t, detect magicLibs (saveBsave (.order 5 [4, 0, 2]) 0x800 [10, 11, 12, 13, 14]) = .ok (.bin ⟨0x800, [14, 10, 12]⟩, t) := by
  have d : OtherFile magicLibs (saveBsave (.order 5 [4, 0, 2]) 0x800 [10, 11, 12, 13, 14]) := other_small (by decide) (by decide)
  exact C102_detected_partial (by decide) (by decide) (by decide) (by decide) (by decide) d.plain d.zip d.sparta

end Atr
