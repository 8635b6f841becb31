import Verif.Lemmas.Xex
/-!
# C17, C18: Atari executables
-/
namespace Atr

/-! ### C18 -/

/-- **C18.** On arbitrary bytes the parser either raises `InvalidBinaryFile` or the file is a sequence of markers,
complete segments and at most one cut-off segment at the end, and the result is exactly the list of these segments.  A file
with at least two bytes must start with a marker.  (In particular the loop always ends.) -/
theorem C18_grammar (b : Bytes) (l : List XSeg) :
    parseXex b = .ok l ↔ ((b.length ≤ 1 ∨ ∃ r, b = 0xff :: 0xff :: r) ∧ XexBody 0 b l) := by
  have := (xexLoop_spec b (b.length + 1) 0 true (by omega) (by omega)).1 l
  rw [List.drop_zero] at this
  unfold parseXex
  rw [this]
  simp

theorem C18_only_invalid (b : Bytes) {e : Err} (h : parseXex b = .error e) : e = .invalidBinaryFile :=
  (xexLoop_spec b (b.length + 1) 0 true (by omega) (by omega)).2 e h

/-- what the grammar says about the pieces: each is the slice of the file at its position -/
theorem XexBody.pieces {pos rest l} (h : XexBody pos rest l) : ∀ pre : Bytes, pre.length = pos →
    ∀ s ∈ l, pos ≤ s.pos ∧ slice (pre ++ rest) s.pos (s.pos + s.data.length) = s.data := by
  have key : ∀ (pre hd d r : Bytes) (p : Nat), p = pre.length + hd.length →
      slice (pre ++ (hd ++ (d ++ r))) p (p + d.length) = d := by
    intro pre hd d r p hp
    subst hp
    unfold slice
    rw [← List.append_assoc, ← List.append_assoc, List.take_append_of_le_length (by simp; omega),
      List.take_of_length_le (by simp; omega), ← List.length_append, List.drop_left]
  induction h with
  | done => intro pre _ s hs; cases hs
  | @marker pos rest l _ ih =>
    intro pre hp s hs
    have := ih (pre ++ [0xff, 0xff]) (by simp [hp]) s hs
    rw [List.append_assoc] at this
    exact ⟨by omega, this.2⟩
  | @seg pos s0 s1 e0 e1 d rest l h1 h2 h3 h4 ih =>
    intro pre hp s hs
    rcases List.mem_cons.mp hs with rfl | hs
    · exact ⟨by simp, key pre [s0, s1, e0, e1] d rest _ (by simp [hp])⟩
    · have := ih (pre ++ [s0, s1, e0, e1] ++ d) (by simp [hp]; omega) s hs
      rw [List.append_assoc, List.append_assoc] at this
      exact ⟨by omega, this.2⟩
  | @cut pos s0 s1 e0 e1 d _ _ _ =>
    intro pre hp s hs
    rw [List.mem_singleton] at hs; subst hs
    have := key pre [s0, s1, e0, e1] d [] (pos + 4) (by simp [hp])
    rw [List.append_nil] at this
    exact ⟨by simp, this⟩
  | @short2 pos s0 s1 _ =>
    intro pre hp s hs
    rw [List.mem_singleton] at hs; subst hs
    exact ⟨by simp, key pre [] [s0, s1] [] pos (by simp [hp])⟩
  | @short3 pos s0 s1 e0 _ =>
    intro pre hp s hs
    rw [List.mem_singleton] at hs; subst hs
    exact ⟨by simp, key pre [] [s0, s1, e0] [] pos (by simp [hp])⟩
  | @odd pos x =>
    intro pre hp s hs
    rw [List.mem_singleton] at hs; subst hs
    exact ⟨by simp, key pre [] [x] [] pos (by simp [hp])⟩

/-- position of the end of a piece -/
def XSeg.stop (s : XSeg) : Nat := s.pos + s.data.length

/-- complete segments -/
def XSeg.Complete (s : XSeg) : Prop := s.kind = .obj ∨ s.kind = .run

theorem XexBody.lower {pos rest l} (h : XexBody pos rest l) : ∀ s ∈ l, pos ≤ s.pos := by
  intro s hs
  exact (h.pieces (List.replicate pos 0) List.length_replicate s hs).1

theorem XexBody.ordered {pos rest l} (h : XexBody pos rest l) :
    l.Pairwise (fun s t => s.stop ≤ t.pos ∧ s.Complete) := by
  induction h with
  | done => exact List.Pairwise.nil
  | marker _ ih => exact ih
  | @seg pos s0 s1 e0 e1 d rest l h1 h2 h3 h4 ih =>
    refine List.Pairwise.cons ?_ ih
    intro t ht
    refine ⟨h4.lower t ht, ?_⟩
    unfold XSeg.Complete
    show (if le16 s0 s1 = 0x2e0 then XKind.run else .obj) = .obj ∨ (if le16 s0 s1 = 0x2e0 then XKind.run else .obj) = .run
    split
    · exact Or.inr rfl
    · exact Or.inl rfl
  | cut _ _ _ => exact List.pairwise_singleton _ _
  | short2 _ => exact List.pairwise_singleton _ _
  | short3 _ => exact List.pairwise_singleton _ _
  | odd => exact List.pairwise_singleton _ _

/-- **C18**, in terms of file positions: the segments are non-empty-or-last, consecutive, non-overlapping slices of the
file in file order, and every segment but the last is complete (has exactly the length its header promises, see
`XexBody.seg`). -/
theorem C18_pieces {b : Bytes} {l : List XSeg} (h : parseXex b = .ok l) :
    (∀ s ∈ l, slice b s.pos s.stop = s.data) ∧ l.Pairwise (fun s t => s.stop ≤ t.pos ∧ s.Complete) := by
  have hb := ((C18_grammar b l).mp h).2
  exact ⟨fun s hs => (hb.pieces [] rfl s hs).2, hb.ordered⟩

/-- two segments with a marker in between, the second one cut off -/
example : parseXex [0xff, 0xff, 0x00, 0x06, 0x01, 0x06, 10, 11, 0xff, 0xff, 0x00, 0x20, 0xff, 0x20, 12] =
    .ok [⟨.obj, 6, 0x600, [10, 11]⟩, ⟨.incomplete, 14, 0x2000, [12]⟩] := by decide +kernel
/-- rejected: end before start; no marker -/
example : parseXex [0xff, 0xff, 0x00, 0x06, 0x00, 0x05, 10] = .error .invalidBinaryFile ∧
    parseXex [0x00, 0x06, 0x00, 0x06, 10] = .error .invalidBinaryFile := by decide +kernel

/-! ### C17 -/

/-- segments that a XEX file can hold: not empty, within 64 KiB, and not starting at 0xffff (which would be read as a
marker) -/
def Seg.Wf (s : Seg) : Prop := s.data ≠ [] ∧ s.origin + s.data.length ≤ 65536 ∧ s.origin ≠ 0xffff

/-- origin, data and class of a parsed segment -/
def XSeg.view (p : XSeg) : Nat × Bytes × XKind := (p.origin, p.data, p.kind)
/-- … and what they have to be -/
def Seg.view (s : Seg) : Nat × Bytes × XKind := (s.origin, s.data, if s.origin = 0x2e0 then .run else .obj)

theorem xexBody_pieces : ∀ (l : List Seg), (∀ s ∈ l, s.Wf) → ∀ pos, ∃ ps, XexBody pos (l.flatMap xexPiece) ps ∧
    ps.map XSeg.view = l.map Seg.view := by
  intro l
  induction l with
  | nil => intro _ pos; exact ⟨[], XexBody.done, rfl⟩
  | cons s l ih =>
    intro hw pos
    obtain ⟨h1, h2, h3⟩ := hw s List.mem_cons_self
    have hpos := List.length_pos_iff.mpr h1
    obtain ⟨ps, k1, k2⟩ := ih (fun t ht => hw t (List.mem_cons_of_mem _ ht)) (pos + 4 + s.data.length)
    have e1 := le16_enc s.origin
    have e2 := le16_enc (s.origin + s.data.length + 65535)
    rw [Nat.mod_eq_of_lt (by omega)] at e1
    rw [show (s.origin + s.data.length + 65535) % 65536 = s.origin + s.data.length - 1 by omega] at e2
    have := XexBody.seg (pos := pos) (s0 := UInt8.ofNat s.origin) (s1 := UInt8.ofNat (s.origin / 256))
      (e0 := UInt8.ofNat (s.origin + s.data.length + 65535)) (e1 := UInt8.ofNat ((s.origin + s.data.length + 65535) / 256))
      (d := s.data) (by rw [e1]; exact h3) (by rw [e1, e2]; omega) h1 k1
    refine ⟨_, this, ?_⟩
    rw [List.map_cons, List.map_cons, k2]
    unfold XSeg.view Seg.view
    simp only [e1]

/-- the run address that the file must state: the one asked for, or the first origin -/
def runValue (segs : List Seg) (runAddr : Option Nat) : Nat :=
  match runAddr with
  | some (a + 1) => a + 1
  | _ => (segs.head?.map Seg.origin).getD 0

/-- the segments that parsing must give back: the run address segment (unless the user supplied one at 0x2e0), then the
given ones -/
def expectedSegs (segs : List Seg) (runAddr : Option Nat) : List Seg :=
  if ∃ s ∈ segs, s.origin = 0x2e0 then segs else ⟨0x2e0, enc16 (runValue segs runAddr)⟩ :: segs

/-- **C17.** Parsing the file built from any segments gives the run address segment followed by the same segments: same
origins, same bytes, same order, complete. -/
theorem C17_build_then_parse {segs : List Seg} {runAddr : Option Nat} {x : Bytes} (hw : ∀ s ∈ segs, s.Wf)
    (hx : getXex segs runAddr = .ok x) :
    ∃ ps, parseXex x = .ok ps ∧ ps.map XSeg.view = (expectedSegs segs runAddr).map Seg.view := by
  have hseg : xexSegments segs runAddr = .ok (expectedSegs segs runAddr) := by
    unfold getXex at hx
    unfold xexSegments at *
    unfold expectedSegs
    by_cases h : ∃ s ∈ segs, s.origin = 0x2e0
    · have hany : segs.any (fun s => s.origin == 0x2e0) = true := by simpa using h
      rw [if_pos h, if_pos hany]
    · have hany : ¬ segs.any (fun s => s.origin == 0x2e0) = true := by simpa using h
      rw [if_neg h, if_neg hany]
      rw [if_neg hany] at hx
      split
      · split
        · rfl
        · rename_i h2; simp only [if_neg h2] at hx; cases hx
      · rename_i hn
        cases segs with
        | nil =>
          split at hx
          · cases hx
          · rename_i hq
            split at hq
            · exact absurd rfl (hn _)
            · cases hq
        | cons s segs =>
          simp only
          unfold runValue
          cases runAddr with
          | none => rfl
          | some a =>
            cases a with
            | zero => rfl
            | succ a => exact absurd rfl (hn a)
  unfold getXex at hx
  rw [hseg] at hx
  injection hx with hx
  have hw' : ∀ s ∈ expectedSegs segs runAddr, s.Wf := by
    intro s hs
    unfold expectedSegs at hs
    split at hs
    · exact hw s hs
    · rcases List.mem_cons.mp hs with rfl | hs
      · refine ⟨?_, ?_, ?_⟩ <;> simp [enc16]
      · exact hw s hs
  obtain ⟨ps, k1, k2⟩ := xexBody_pieces _ hw' 2
  refine ⟨ps, (C18_grammar _ _).mpr ⟨Or.inr ?_, ?_⟩, k2⟩
  · rw [← hx]; exact ⟨_, rfl⟩
  · rw [← hx]; exact XexBody.marker k1

/-- the two bytes of the run address segment are the run address -/
theorem C17_run_address (segs : List Seg) (runAddr : Option Nat) (h : runValue segs runAddr < 65536) :
    ∃ lo hi, enc16 (runValue segs runAddr) = [lo, hi] ∧ le16 lo hi = runValue segs runAddr := by
  refine ⟨_, _, rfl, ?_⟩
  rw [le16_enc]; omega

/-- which inputs are legal: a file is built exactly if there is a segment at 0x2e0, or no run address is given and there is
a segment, or the run address lies in a segment -/
theorem C17_build_succeeds (segs : List Seg) (runAddr : Option Nat) :
    (∃ x, getXex segs runAddr = .ok x) ↔
      ((∃ s ∈ segs, s.origin = 0x2e0) ∨ ((runAddr = none ∨ runAddr = some 0) ∧ segs ≠ []) ∨
        ∃ a, runAddr = some a ∧ ∃ s ∈ segs, s.origin ≤ a ∧ a < s.origin + s.data.length) := by
  have hany : segs.any (fun s => s.origin == 0x2e0) = true ↔ ∃ s ∈ segs, s.origin = 0x2e0 := by simp
  have hok : (∃ x, getXex segs runAddr = .ok x) ↔ ∃ l, xexSegments segs runAddr = .ok l := by
    unfold getXex
    cases xexSegments segs runAddr with
    | ok l => exact ⟨fun _ => ⟨_, rfl⟩, fun _ => ⟨_, rfl⟩⟩
    | error e => exact ⟨fun ⟨_, h⟩ => (nomatch h), fun ⟨_, h⟩ => nomatch h⟩
  rw [hok]
  unfold xexSegments
  by_cases h : ∃ s ∈ segs, s.origin = 0x2e0
  · rw [if_pos (hany.mpr h)]
    exact ⟨fun _ => Or.inl h, fun _ => ⟨_, rfl⟩⟩
  · rw [if_neg (fun hh => h (hany.mp hh))]
    rcases runAddr with _ | _ | a
    · cases segs with
      | nil =>
        refine ⟨fun ⟨_, h⟩ => (nomatch h), ?_⟩
        rintro (hh | ⟨_, hs⟩ | ⟨a, ha, _⟩)
        · exact absurd hh h
        · exact absurd rfl hs
        · cases ha
      | cons s segs => exact ⟨fun _ => Or.inr (Or.inl ⟨Or.inl rfl, by simp⟩), fun _ => ⟨_, rfl⟩⟩
    · cases segs with
      | nil =>
        refine ⟨fun ⟨_, h⟩ => (nomatch h), ?_⟩
        rintro (hh | ⟨_, hs⟩ | ⟨a, ha, s, hs, _⟩)
        · exact absurd hh h
        · exact absurd rfl hs
        · cases hs
      | cons s segs => exact ⟨fun _ => Or.inr (Or.inl ⟨Or.inr rfl, by simp⟩), fun _ => ⟨_, rfl⟩⟩
    · have hany2 : segs.any (·.has (a + 1)) = true ↔ ∃ s ∈ segs, s.origin ≤ a + 1 ∧ a + 1 < s.origin + s.data.length := by
        simp [Seg.has]
      simp only
      by_cases h2 : segs.any (·.has (a + 1)) = true
      · rw [if_pos h2]
        exact ⟨fun _ => Or.inr (Or.inr ⟨a + 1, rfl, hany2.mp h2⟩), fun _ => ⟨_, rfl⟩⟩
      · rw [if_neg h2]
        constructor
        · rintro ⟨x, hx⟩; cases hx
        · rintro (hh | ⟨hh | hh, _⟩ | ⟨b, hb, hs⟩)
          · exact absurd hh h
          · cases hh
          · cases hh
          · cases hb; exact absurd (hany2.mpr hs) h2

/-- two segments, run address inside the second one -/
example : ∃ x, getXex [⟨0x600, [1, 2, 3]⟩, ⟨0x2000, [4, 5]⟩] (some 0x2001) = .ok x ∧
    parseXex x = .ok [⟨.run, 6, 0x2e0, [0x01, 0x20]⟩, ⟨.obj, 12, 0x600, [1, 2, 3]⟩, ⟨.obj, 19, 0x2000, [4, 5]⟩] := by
  exact ⟨_, rfl, by decide +kernel⟩

/-- The condition `origin ≠ 0xffff` is needed: a one-byte segment at 0xffff is lost (its header is read as markers). -/
theorem C17_top_byte_lost : ∃ x, getXex [⟨0xffff, [7]⟩] none = .ok x ∧
    ∃ ps, parseXex x = .ok ps ∧ ∀ p ∈ ps, p.origin ≠ 0xffff := by
  refine ⟨_, rfl, _, (by decide +kernel : parseXex _ = .ok [⟨.run, 6, 0x2e0, [0xff, 0xff]⟩, ⟨.odd, 12, 0, [7]⟩]), by decide⟩

end Atr
