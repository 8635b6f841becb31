import Verif.Model.Assemble
import Verif.Props.Text
import Verif.Props.Xex
import Verif.Props.Bsave
import Verif.Props.Cli
import Verif.Props.Dos33Cli
/-!
# C62, C63, C64: the `assemble` command
-/
namespace Atr

/-! ### C62: data files -/

theorem rsplit1_none {c : Char} : ∀ {s : List Char}, c ∉ s → rsplit1 c s = none
  | [], _ => rfl
  | a :: s, h => by
    unfold rsplit1
    rw [rsplit1_none (fun hx => h (List.mem_cons_of_mem _ hx))]
    simp only
    rw [if_neg (fun hx => h (by rw [hx]; exact List.mem_cons_self))]

theorem rsplit1_last {c : Char} {y : List Char} (hy : c ∉ y) : ∀ (x : List Char), rsplit1 c (x ++ c :: y) = some (x, y)
  | [] => by
    rw [List.nil_append]
    unfold rsplit1
    rw [rsplit1_none hy]
    simp
  | a :: x => by
    rw [List.cons_append]
    unfold rsplit1
    rw [rsplit1_last hy x]

theorem split1_first {c : Char} {y : List Char} : ∀ {x : List Char}, c ∉ x → split1 c (x ++ c :: y) = some (x, y)
  | [], _ => by simp [split1]
  | a :: x, h => by
    rw [List.cons_append]
    unfold split1
    rw [if_neg (fun hx => h (by rw [hx]; exact List.mem_cons_self)), split1_first (fun hx => h (List.mem_cons_of_mem _ hx))]
    rfl

/-- **C62, whole files.** `name@address` loads the whole file at the address, for every name without a pair of brackets (it may
contain further `@`) and every way of writing the address. -/
theorem C62_whole (files : List Char → Except Err Bytes) {name addr : List Char} {v : Int} {d : Bytes}
    (hn : '[' ∉ name ∨ ']' ∉ name) (ha : '@' ∉ addr) (hv : textToInt addr false = .ok v) (hf : files name = .ok d) :
    dataSegment files (name ++ '@' :: addr) = .ok (v, d) := by
  unfold dataSegment
  rw [rsplit1_last ha]
  simp only [hv]
  have : (name.contains '[' && name.contains ']') = false := by
    rcases hn with hn | hn <;> simp [hn]
  rw [this]
  simp only [Bool.false_eq_true, if_false, hf]
  unfold pySlice slice sliceBound
  simp

/-- with a subset: general form -/
theorem dataSegment_subset (files : List Char → Except Err Bytes) {name s e addr : List Char} {v : Int} {d : Bytes}
    (hs : ':' ∉ s ∧ '[' ∉ s) (he : '[' ∉ e) (ha : '@' ∉ addr)
    (hv : textToInt addr false = .ok v) (hf : files name = .ok d) :
    dataSegment files (name ++ '[' :: s ++ ':' :: e ++ ']' :: '@' :: addr) = .ok (v, pySlice d
      (match pyInt 10 s with | .ok v => v | .error _ => 0) (match pyInt 10 e with | .ok v => some v | .error _ => none)) := by
  unfold dataSegment
  rw [show name ++ '[' :: s ++ ':' :: e ++ ']' :: '@' :: addr = (name ++ '[' :: (s ++ ':' :: (e ++ [']']))) ++ '@' :: addr by simp,
    rsplit1_last ha]
  simp only [hv]
  rw [show ((name ++ '[' :: (s ++ ':' :: (e ++ [']']))).contains '[' && (name ++ '[' :: (s ++ ':' :: (e ++ [']']))).contains ']') = true by simp]
  simp only [if_true]
  rw [rsplit1_last (by simp [hs.2, he])]
  simp only [hf]
  unfold subsetOf
  rw [split1_first hs.1]
  simp only [List.getLast?_append, List.getLast?_singleton, Option.some_or, if_true, List.dropLast_concat]
  cases pyInt 10 s <;> cases pyInt 10 e <;> rfl

theorem digits_chars (n : Nat) (b : Nat) (hb : 1 < b) (hb16 : b ≤ 16) : ∀ c ∈ Nat.toDigits b n, c ≠ '@' ∧ c ≠ ':' ∧ c ≠ '[' ∧ c ≠ ']' := by
  obtain ⟨l, h1, h2, _⟩ := digits_numeral b hb hb16 n
  intro c hc
  rw [← h2] at hc
  obtain ⟨p, hp, rfl⟩ := List.mem_map.mp hc
  exact (by decide : ∀ p ∈ digitChars, p.1 ≠ '@' ∧ p.1 ≠ ':' ∧ p.1 ≠ '[' ∧ p.1 ≠ ']') p (h1.2 p hp).1

theorem pyInt_digits (n : Nat) : pyInt 10 (Nat.toDigits 10 n) = .ok (n : Int) := by
  obtain ⟨l, h1, h2, h3⟩ := digits_numeral 10 (by decide) (by decide) n
  rw [← h2, pyInt_numeral 10 l h1, h3]

theorem pyInt_neg_digits (n : Nat) : pyInt 10 ('-' :: Nat.toDigits 10 n) = .ok (-(n : Int)) := by
  obtain ⟨l, h1, h2, h3⟩ := digits_numeral 10 (by decide) (by decide) n
  rw [← h2]
  unfold pyInt
  rw [pyStrip_of_not (fun c hc => by
    rcases List.mem_cons.mp hc with rfl | hc
    · decide
    · obtain ⟨p, hp, rfl⟩ := List.mem_map.mp hc
      exact (digitChars_ok p (h1.2 p hp).1).2.2.2.2.1)]
  simp only [pySigned]
  rw [pyMagnitude_numeral 10 l h1, h3]
  rfl

/-- **C62, subsets.** `name[i:j]@address` with decimal numbers loads the bytes at the positions `i ≤ p < j` that the file has;
`[i:]`, `[:j]` and `[:]` leave a bound open; `[-i:]` and `[:-j]` count from the end. -/
theorem C62_subset (files : List Char → Except Err Bytes) {name addr : List Char} {v : Int} {d : Bytes} (i j : Nat)
    (ha : '@' ∉ addr) (hv : textToInt addr false = .ok v) (hf : files name = .ok d) :
    dataSegment files (name ++ '[' :: Nat.toDigits 10 i ++ ':' :: Nat.toDigits 10 j ++ ']' :: '@' :: addr) = .ok (v, (d.take j).drop i) ∧
    dataSegment files (name ++ '[' :: Nat.toDigits 10 i ++ ':' :: [] ++ ']' :: '@' :: addr) = .ok (v, d.drop i) ∧
    dataSegment files (name ++ '[' :: [] ++ ':' :: Nat.toDigits 10 j ++ ']' :: '@' :: addr) = .ok (v, d.take j) ∧
    dataSegment files (name ++ '[' :: [] ++ ':' :: [] ++ ']' :: '@' :: addr) = .ok (v, d) ∧
    (0 < i → dataSegment files (name ++ '[' :: ('-' :: Nat.toDigits 10 i) ++ ':' :: [] ++ ']' :: '@' :: addr) = .ok (v, d.drop (d.length - i))) ∧
    (0 < j → dataSegment files (name ++ '[' :: [] ++ ':' :: ('-' :: Nat.toDigits 10 j) ++ ']' :: '@' :: addr) = .ok (v, d.take (d.length - j))) := by
  have c1 : ∀ n, ':' ∉ Nat.toDigits 10 n ∧ '[' ∉ Nat.toDigits 10 n := fun n =>
    ⟨fun h => (digits_chars n 10 (by decide) (by decide) _ h).2.1 rfl, fun h => (digits_chars n 10 (by decide) (by decide) _ h).2.2.1 rfl⟩
  have c2 : ∀ n, ':' ∉ '-' :: Nat.toDigits 10 n ∧ '[' ∉ '-' :: Nat.toDigits 10 n := fun n => by
    simp only [List.mem_cons, not_or]; exact ⟨⟨by decide, (c1 n).1⟩, ⟨by decide, (c1 n).2⟩⟩
  have c3 : ':' ∉ ([] : List Char) ∧ '[' ∉ ([] : List Char) := by simp
  have n1 : pyInt 10 [] = .error .valueError := rfl
  have b1 : ∀ n : Nat, sliceBound d.length (n : Int) = min n d.length := fun n => by
    unfold sliceBound; rw [if_neg (by omega)]; rfl
  have b2 : ∀ n : Nat, 0 < n → sliceBound d.length (-(n : Int)) = d.length - n := fun n hn => by
    unfold sliceBound; rw [if_pos (by omega)]; omega
  have b0 : sliceBound d.length 0 = 0 := by unfold sliceBound; rw [if_neg (by omega)]; simp
  have t1 : ∀ n, d.take (min n d.length) = d.take n := fun n => by rw [List.take_eq_take_iff]; omega
  have t2 : ∀ (l : Bytes) n, l.length ≤ d.length → l.drop (min n d.length) = l.drop n := fun l n h => by
    by_cases hn : n ≤ d.length
    · rw [Nat.min_eq_left hn]
    · rw [Nat.min_eq_right (by omega), List.drop_eq_nil_of_le h, List.drop_eq_nil_of_le (by omega)]
  refine ⟨?_, ?_, ?_, ?_, ?_, ?_⟩
  · rw [dataSegment_subset files (c1 i) (c1 j).2 ha hv hf, pyInt_digits, pyInt_digits]
    simp only [pySlice, slice, b1, t1]
    rw [t2 _ _ (by rw [List.length_take]; omega)]
  · rw [dataSegment_subset files (c1 i) c3.2 ha hv hf, pyInt_digits, n1]
    simp only [pySlice, slice, b1, List.take_length]
    rw [t2 _ _ (Nat.le_refl _)]
  · rw [dataSegment_subset files c3 (c1 j).2 ha hv hf, pyInt_digits, n1]
    simp only [pySlice, slice, b1, b0, t1, List.drop_zero]
  · rw [dataSegment_subset files c3 c3.2 ha hv hf, n1]
    simp only [pySlice, slice, b0, List.take_length, List.drop_zero]
  · intro hi
    rw [dataSegment_subset files (c2 i) c3.2 ha hv hf, pyInt_neg_digits, n1]
    simp only [pySlice, slice, b2 i hi, List.take_length]
  · intro hj
    rw [dataSegment_subset files c3 (c2 j).2 ha hv hf, pyInt_neg_digits, n1]
    simp only [pySlice, slice, b2 j hj, b0, List.drop_zero]

/-- **C62 is false for other numbers**: a subset whose bounds are not decimal, such as `[0x10:0x20]`, is ignored without a
message and the whole file is loaded; so is `[5]`. -/
theorem C62_refuted_hex (files : List Char → Except Err Bytes) {name addr : List Char} {v : Int} {d : Bytes}
    (ha : '@' ∉ addr) (hv : textToInt addr false = .ok v) (hf : files name = .ok d) :
    dataSegment files (name ++ '[' :: ['0', 'x', '1', '0'] ++ ':' :: ['0', 'x', '2', '0'] ++ ']' :: '@' :: addr) = .ok (v, d) ∧
    dataSegment files (name ++ '[' :: ['$', '1', '0'] ++ ':' :: ['$', '2', '0'] ++ ']' :: '@' :: addr) = .ok (v, d) ∧
    dataSegment files (name ++ '[' :: ['5', ']'] ++ '@' :: addr) = .ok (v, d) := by
  have b0 : sliceBound d.length 0 = 0 := by unfold sliceBound; rw [if_neg (by omega)]; simp
  refine ⟨?_, ?_, ?_⟩
  · rw [dataSegment_subset files (by decide) (by decide) ha hv hf, show pyInt 10 ['0', 'x', '1', '0'] = .error .valueError by decide,
      show pyInt 10 ['0', 'x', '2', '0'] = .error .valueError by decide]
    simp only [pySlice, slice, b0, List.take_length, List.drop_zero]
  · rw [dataSegment_subset files (by decide) (by decide) ha hv hf, show pyInt 10 ['$', '1', '0'] = .error .valueError by decide,
      show pyInt 10 ['$', '2', '0'] = .error .valueError by decide]
    simp only [pySlice, slice, b0, List.take_length, List.drop_zero]
  · unfold dataSegment
    rw [rsplit1_last ha]
    simp only [hv]
    rw [show ((name ++ ['[', '5', ']']).contains '[' && (name ++ ['[', '5', ']']).contains ']') = true by simp]
    simp only [if_true]
    rw [rsplit1_last (by decide)]
    simp only [hf]
    rw [show subsetOf ['5', ']'] = (0, none) by decide]
    simp only [pySlice, slice, b0, List.take_length, List.drop_zero]

/-- **C62 is false for names with brackets**: `x[1].bin@600` reads the file `x`, not `x[1].bin`. -/
theorem C62_refuted_name (files : List Char → Except Err Bytes) (d : Bytes) (hf : files ['x'] = .error .ioError)
    (_ : files ['x', '[', '1', ']', '.', 'b', 'i', 'n'] = .ok d) :
    dataSegment files ['x', '[', '1', ']', '.', 'b', 'i', 'n', '@', '6', '0', '0'] = .error .ioError := by
  unfold dataSegment
  rw [show rsplit1 '@' ['x', '[', '1', ']', '.', 'b', 'i', 'n', '@', '6', '0', '0'] = some (['x', '[', '1', ']', '.', 'b', 'i', 'n'], ['6', '0', '0']) by decide]
  simp only [show textToInt ['6', '0', '0'] false = .ok 1536 by decide, show rsplit1 '[' ['x', '[', '1', ']', '.', 'b', 'i', 'n'] = some (['x'], ['1', ']', '.', 'b', 'i', 'n']) by decide]
  rw [show (['x', '[', '1', ']', '.', 'b', 'i', 'n'].contains '[' && ['x', '[', '1', ']', '.', 'b', 'i', 'n'].contains ']') = true by decide]
  simp only [if_true, hf]

/-- without `@` the command is refused -/
theorem C62_no_address (files : List Char → Except Err Bytes) {text : List Char} (h : '@' ∉ text) :
    dataSegment files text = .error .atrError := by
  unfold dataSegment; rw [rsplit1_none h]

/-- `a@b[1:3]@$600`: bytes 1 and 2 of the file `a@b` at 0x600 -/
example : dataSegment (fun n => if n = ['a', '@', 'b'] then .ok [10, 11, 12, 13] else .error .ioError)
    ['a', '@', 'b', '[', '1', ':', '3', ']', '@', '$', '6', '0', '0'] = .ok (0x600, [11, 12]) := by decide +kernel

/-- the segments of a list of data files are those of the single files, in order; an error of any of them is an error -/
theorem C62_list (files : List Char → Except Err Bytes) (ts : List (List Char)) (l : List (Int × Bytes)) :
    dataLoop files ts = .ok l ↔ List.map (dataSegment files) ts = l.map .ok := by
  induction ts generalizing l with
  | nil => cases l <;> simp [dataLoop]
  | cons t ts ih =>
    unfold dataLoop
    cases h : dataSegment files t with
    | error e => cases l <;> simp [h]
    | ok s =>
      simp only [List.map_cons, h]
      cases h2 : dataLoop files ts with
      | error e =>
        cases l with
        | nil => simp
        | cons x l =>
          simp only [List.map_cons, List.cons.injEq, Except.ok.injEq]
          constructor
          · intro h; cases h
          · rintro ⟨_, h⟩
            rw [(ih l).mpr h] at h2; cases h2
      | ok l' =>
        have h3 := (ih l').mp h2
        cases l with
        | nil => simp
        | cons x l =>
          simp only [List.map_cons, List.cons.injEq, Except.ok.injEq]
          rw [h3]
          constructor
          · rintro ⟨rfl, rfl⟩; exact ⟨rfl, rfl⟩
          · rintro ⟨rfl, h⟩
            refine ⟨rfl, ?_⟩
            have := congrArg (List.filterMap fun x : Except Err (Int × Bytes) => match x with | .ok v => some v | .error _ => none) h
            rw [List.filterMap_map, List.filterMap_map] at this
            simpa [Function.comp_def] using this

/-! ### C63: object files -/

/-- segments with integer origins, as `assemble_segments` makes them -/
def Seg.int (s : Seg) : Int × Bytes := ((s.origin : Int), s.data)

theorem objLoop_segs : ∀ (l : List Seg) (acc : List (Int × Bytes)) (run : RunArg), (∀ s ∈ l, 0 < s.origin) →
    objLoop (l.map fun s => .seg s.origin s.data) acc run = (acc ++ l.map Seg.int, run) := by
  intro l
  induction l with
  | nil => intro acc run _; simp [objLoop]
  | cons s l ih =>
    intro acc run h
    rw [List.map_cons, objLoop, if_pos (h s List.mem_cons_self), ih _ _ (fun t ht => h t (List.mem_cons_of_mem _ ht))]
    simp [Seg.int]

/-- what the parsed segments of an executable become -/
theorem asObj_view {s : XSeg} {t : Seg} (h : s.view = t.view) (ht : t.origin ≠ 0x2e0) : s.asObj = .ok (.seg t.origin t.data) := by
  unfold XSeg.view Seg.view at h
  rw [if_neg ht] at h
  injection h with h1 h2
  injection h2 with h2 h3
  unfold XSeg.asObj
  rw [if_neg (by rw [h3]; decide), h1, h2]

theorem asObj_list : ∀ {ps : List XSeg} {segs : List Seg}, ps.map XSeg.view = segs.map Seg.view → (∀ s ∈ segs, s.origin ≠ 0x2e0) →
    ps.map XSeg.asObj = segs.map fun t => .ok (.seg t.origin t.data)
  | [], [], _, _ => rfl
  | [], _ :: _, h, _ => by simp at h
  | _ :: _, [], h, _ => by simp at h
  | p :: ps, s :: segs, h, hs => by
    rw [List.map_cons, List.map_cons] at h
    injection h with h1 h2
    rw [List.map_cons, List.map_cons, asObj_view h1 (hs s List.mem_cons_self),
      asObj_list h2 (fun t ht => hs t (List.mem_cons_of_mem _ ht))]

/-- **C63.** Assembling from an executable reproduces it: take any executable built from segments inside 64 KiB that are not at
address 0 and do not start at 0x2e0.  Its object segments are the given segments, its run address is found, and building
again gives the same file, byte for byte. -/
theorem C63_reassemble_partial (files : List Char → Except Err Bytes) {segs : List Seg} {runAddr : Option Nat} {x : Bytes} (hw : ∀ s ∈ segs, s.Wf)
    (h0 : ∀ s ∈ segs, 0 < s.origin ∧ s.origin ≠ 0x2e0) (hx : getXex segs runAddr = .ok x) :
    ∃ ps objs, parseXex x = .ok ps ∧ ps.map XSeg.asObj = objs.map .ok ∧
      assembleSegments files [] [some objs] [] = .ok (segs.map Seg.int, some (runValue segs runAddr : Int)) ∧
      getXex segs (some (runValue segs runAddr)) = .ok x := by
  obtain ⟨ps, h1, h2⟩ := C17_build_then_parse hw hx
  have hno : ¬ ∃ s ∈ segs, s.origin = 0x2e0 := fun ⟨s, hs, he⟩ => (h0 s hs).2 he
  unfold expectedSegs at h2
  rw [if_neg hno] at h2
  have hany : segs.any (fun s => s.origin == 0x2e0) = false := by
    rw [List.any_eq_false]; intro s hs; simp [(h0 s hs).2]
  -- the run address lies in a segment
  have hsucc := (C17_build_succeeds segs runAddr).mp ⟨x, hx⟩
  have hne : segs ≠ [] := by
    rcases hsucc with h | ⟨_, h⟩ | ⟨a, _, s, hs, _⟩
    · exact absurd h hno
    · exact h
    · exact List.ne_nil_of_mem hs
  have hrun : 0 < runValue segs runAddr ∧ ∃ s ∈ segs, s.origin ≤ runValue segs runAddr ∧ runValue segs runAddr < s.origin + s.data.length := by
    have first : 0 < (segs.head?.map Seg.origin).getD 0 ∧ ∃ s ∈ segs, s.origin ≤ (segs.head?.map Seg.origin).getD 0 ∧
        (segs.head?.map Seg.origin).getD 0 < s.origin + s.data.length := by
      cases segs with
      | nil => exact absurd rfl hne
      | cons s l =>
        have := List.length_pos_iff.mpr (hw s List.mem_cons_self).1
        exact ⟨(h0 s List.mem_cons_self).1, s, List.mem_cons_self, Nat.le_refl _, by simp; omega⟩
    unfold runValue
    rcases hsucc with h | ⟨h | h, _⟩ | ⟨a, h, hs⟩
    · exact absurd h hno
    · subst h; exact first
    · subst h; exact first
    · subst h
      cases a with
      | zero => exact first
      | succ a => exact ⟨by simp, hs⟩
  obtain ⟨hr0, s, hs, hr1, hr2⟩ := hrun
  have hr3 : runValue segs runAddr < 65536 := by have := (hw s hs).2.1; omega
  cases ps with
  | nil => simp at h2
  | cons p ps =>
    rw [List.map_cons, List.map_cons] at h2
    injection h2 with h2 h3
    have hp : p.asObj = .ok (.run (runValue segs runAddr)) := by
      unfold XSeg.view Seg.view at h2
      simp only [if_true] at h2
      injection h2 with k1 k2
      injection k2 with k2 k3
      unfold XSeg.asObj
      rw [if_pos k3, k2]
      unfold enc16
      simp only
      rw [le16_enc, Nat.mod_eq_of_lt hr3]
    refine ⟨p :: ps, .run (runValue segs runAddr) :: segs.map fun t => .seg t.origin t.data, h1, ?_, ?_, ?_⟩
    · rw [List.map_cons, hp, asObj_list h3 (fun s hs => (h0 s hs).2)]
      simp
    · unfold assembleSegments
      simp only [dataLoop, List.flatMap_cons, List.flatMap_nil, Option.getD_some, List.append_nil, objLoop]
      rw [if_neg (by decide), objLoop_segs segs [] _ (fun s hs => (h0 s hs).1)]
      rfl
    · rw [← hx]
      unfold getXex xexSegments
      rw [if_neg (by rw [hany]; simp), if_neg (by rw [hany]; simp)]
      have hhas : segs.any (·.has (runValue segs runAddr)) = true := by
        rw [List.any_eq_true]; exact ⟨s, hs, by unfold Seg.has; simp [hr1, hr2]⟩
      obtain ⟨a, ha⟩ : ∃ a, runValue segs runAddr = a + 1 := ⟨_, (Nat.succ_pred_eq_of_pos hr0).symm⟩
      rw [ha] at hhas ⊢
      simp only [hhas, if_true]
      unfold runValue at ha
      rcases hsucc with h | ⟨h | h, _⟩ | ⟨a', h, s', hs'⟩
      · exact absurd h hno
      · subst h
        cases segs with
        | nil => exact absurd rfl hne
        | cons s l => simp only [List.head?_cons, Option.map_some, Option.getD_some] at ha; simp only [ha]
      · subst h
        cases segs with
        | nil => exact absurd rfl hne
        | cons s l => simp only [List.head?_cons, Option.map_some, Option.getD_some] at ha; simp only [ha]
      · subst h
        cases a' with
        | zero =>
          cases segs with
          | nil => exact absurd rfl hne
          | cons s l => simp only [List.head?_cons, Option.map_some, Option.getD_some] at ha; simp only [ha]
        | succ a' =>
          simp only at ha
          rw [← ha] at hhas ⊢
          simp only [hhas, if_true]

example : ∃ ps objs, parseXex [255, 255, 224, 2, 225, 2, 1, 6, 0, 6, 1, 6, 1, 2, 128, 0, 128, 0, 3] = .ok ps ∧ ps.map XSeg.asObj = objs.map .ok ∧
    assembleSegments (fun _ => .error .ioError) [] [some objs] [] = .ok ([(0x600, [1, 2]), (0x80, [3])], some 0x601) := by
  obtain ⟨ps, objs, h1, h2, h3, _⟩ := C63_reassemble_partial (fun _ => .error .ioError) (segs := [⟨0x600, [1, 2]⟩, ⟨0x80, [3]⟩]) (runAddr := some 0x601)
    (by simp [Seg.Wf]) (by simp) rfl
  exact ⟨ps, objs, h1, h2, h3⟩

/-- **C63 is false in general**: a segment at address 0 is dropped without a message. -/
theorem C63_refuted_zero_page : ∃ x, getXex [⟨0x600, [1]⟩, ⟨0, [2, 3]⟩] none = .ok x ∧ ∃ ps objs, parseXex x = .ok ps ∧
    ps.map XSeg.asObj = objs.map .ok ∧ ∀ files, assembleSegments files [] [some objs] [] = .ok ([(0x600, [1])], some 0x600) :=
  ⟨_, rfl, _, [.run 0x600, .seg 0x600 [1], .seg 0 [2, 3]], (by decide +kernel :
    parseXex _ = .ok [⟨.run, 6, 0x2e0, [0, 6]⟩, ⟨.obj, 12, 0x600, [1]⟩, ⟨.obj, 17, 0, [2, 3]⟩]), by decide, fun _ => rfl⟩

/-- …and of a segment that starts at 0x2e0 only the first two bytes count: an initialisation address in the next two is lost. -/
theorem C63_refuted_init : ∃ x, getXex [⟨0x600, [1]⟩, ⟨0x2e0, [0, 6, 0x34, 0x12]⟩] none = .ok x ∧ ∃ ps objs, parseXex x = .ok ps ∧
    ps.map XSeg.asObj = objs.map .ok ∧ ∀ files, assembleSegments files [] [some objs] [] = .ok ([(0x600, [1])], some 0x600) :=
  ⟨_, rfl, _, [.seg 0x600 [1], .run 0x600], (by decide +kernel :
    parseXex _ = .ok [⟨.obj, 6, 0x600, [1]⟩, ⟨.run, 11, 0x2e0, [0, 6, 0x34, 0x12]⟩]), by decide, fun _ => rfl⟩

/-- a file cut off in the middle of a segment is assembled without a message -/
theorem C63_refuted_cut : ∃ ps objs, parseXex [0xff, 0xff, 0x00, 0x06, 0xff, 0x06, 1, 2, 3] = .ok ps ∧
    ps.map XSeg.asObj = objs.map .ok ∧ ∀ files, assembleSegments files [] [some objs] [] = .ok ([(0x600, [1, 2, 3])], none) :=
  ⟨_, [.seg 0x600 [1, 2, 3]], (by decide +kernel : parseXex _ = .ok [⟨.incomplete, 6, 0x600, [1, 2, 3]⟩]), by decide, fun _ => rfl⟩

/-- **C63, run address.** A run address on the command line wins over those in the files; else the first one in the files that is
not 0 is used.  Text that is no number counts as no run address at all. -/
theorem C63_run_text (files : List Char → Except Err Bytes) {objs : List (Option (List ObjSeg))} {run : List Char} {v : Int} (hne : run ≠ [])
    (hv : textToInt run false = .ok v) : ∃ segs, assembleSegments files [] objs run = .ok (segs, some v) := by
  have key : ∀ (l : List ObjSeg) (acc : List (Int × Bytes)), (objLoop l acc (.text run)).2 = .text run := by
    intro l
    induction l with
    | nil => intro acc; rfl
    | cons o l ih =>
      intro acc
      cases o with
      | run a =>
        simp only [objLoop]
        rw [if_pos (by simp [RunArg.isSet, hne])]
        exact ih acc
      | seg o d => simp only [objLoop]; exact ih _
  unfold assembleSegments
  simp only [dataLoop]
  rw [key]
  have : (RunArg.text run).value = some v := by
    cases run with
    | nil => exact absurd rfl hne
    | cons c cs => simp only [RunArg.value, hv]
  rw [this]
  exact ⟨_, rfl⟩

theorem C63_run_file (files : List Char → Except Err Bytes) (objs : List (Option (List ObjSeg))) :
    ∃ segs, assembleSegments files [] objs [] = .ok (segs,
      match (objs.flatMap fun o => o.getD []).filterMap (fun o => match o with | .run a => some a | _ => none) with
      | [] => none
      | as => some (((as.find? (· != 0)).getD 0 : Nat) : Int)) := by
  have set : ∀ (l : List ObjSeg) (acc : List (Int × Bytes)) (n : Nat), n ≠ 0 → (objLoop l acc (.num n)).2 = .num n := by
    intro l
    induction l with
    | nil => intro acc n _; rfl
    | cons o l ih =>
      intro acc n hn
      cases o with
      | run a => simp only [objLoop]; rw [if_pos (by simp [RunArg.isSet, hn])]; exact ih acc n hn
      | seg o d => simp only [objLoop]; exact ih _ n hn
  have zero : ∀ (l : List ObjSeg) (acc : List (Int × Bytes)), (objLoop l acc (.num 0)).2 = .num (((l.filterMap
      (fun o => match o with | .run a => some a | _ => none)).find? (· != 0)).getD 0) := by
    intro l
    induction l with
    | nil => intro acc; rfl
    | cons o l ih =>
      intro acc
      cases o with
      | run a =>
        simp only [objLoop]
        rw [if_neg (by simp [RunArg.isSet])]
        by_cases ha : a = 0
        · subst ha; rw [ih]; simp
        · rw [set l acc a ha]; simp [ha]
      | seg o d => simp only [objLoop]; rw [ih]; simp
  have none' : ∀ (l : List ObjSeg) (acc : List (Int × Bytes)), (objLoop l acc (.text [])).2.value =
      match l.filterMap (fun o => match o with | .run a => some a | _ => none) with
      | [] => none
      | as => some (((as.find? (· != 0)).getD 0 : Nat) : Int) := by
    intro l
    induction l with
    | nil => intro acc; rfl
    | cons o l ih =>
      intro acc
      cases o with
      | run a =>
        simp only [objLoop]
        rw [if_neg (by simp [RunArg.isSet])]
        by_cases ha : a = 0
        · subst ha; rw [zero]; simp [RunArg.value]
        · rw [set l acc a ha]; simp [RunArg.value, ha]
      | seg o d => simp only [objLoop]; rw [ih]; simp
  unfold assembleSegments
  simp only [dataLoop]
  rw [none']
  exact ⟨_, rfl⟩

theorem C63_bad_run_ignored : ∀ files segs, assembleSegments files [] [some [.seg 0x600 segs]] ['m', 'a', 'i', 'n'] = .ok ([(0x600, segs)], none) := by
  intro files segs
  unfold assembleSegments
  simp only [dataLoop, List.flatMap_cons, List.flatMap_nil, Option.getD_some, objLoop, List.append_nil, List.nil_append]
  rw [if_pos (by decide)]
  have : (RunArg.text ['m', 'a', 'i', 'n']).value = none := by decide
  rw [this]
  rfl

/-! ### C64: from segments to a file on a disk and back -/

/-- the whole command is an `add` of the executable -/
theorem runAssemble_add {σ : Type} (D : Driver σ) (o : Opts) (default : ExeKind) (output : Bytes) (segs : List Seg) (run : Option Nat) (b : Bytes)
    {x : Bytes} (hx : createExecutable default output segs run = .ok x) :
    runAssemble D o default output segs run b = (Cmd.add [(output, x)]).run D o b := by
  unfold runAssemble Cmd.run
  cases D.load b with
  | error e => rfl
  | ok m =>
    simp only [hx, Cmd.exec, addLoop]
    cases h : saveFile D o output x m with
    | mk r m' =>
      cases r with
      | error e => rfl
      | ok c => cases c <;> rfl

theorem exeKind_xex {name : Bytes} (h : ∃ pre, name = pre ++ [0x58, 0x45, 0x58] ∨ name = pre ++ [0x78, 0x65, 0x78]) : exeKind name = some .xex := by
  unfold exeKind
  rw [if_pos]
  unfold endsWith
  obtain ⟨pre, rfl | rfl⟩ := h <;>
    simp only [List.map_append, List.reverse_append] <;>
    rw [List.take_append_of_le_length (by decide)] <;> decide

/-- **C64, Atari DOS.** `assemble` on a consistent volume puts a file there that reads back as exactly the segments given: after a
run that succeeds, looking up the name gives an executable whose parsed segments are the run address and the given
segments, complete and in order; all other files stay. -/
theorem C64_atari {h b M} {o : Opts} {output : Bytes} {segs : List Seg} {run : Option Nat} {x : Bytes} (hh : Holds h b M)
    (hmax : h.maxSectors < 1280) (hdry : o.dryRun = false) (hnew : output ∉ M.keys ∨ o.force = true) (hc : Canon83 output)
    (hfull : (M.del output).length < 64) (hk : exeKind output ≠ some .bsave) (hw : ∀ s ∈ segs, s.Wf) (hx : getXex segs run = .ok x)
    (hok : (runAssemble atariDriver o .xex output segs run b).1 = .ok ()) :
    ∃ m ps, AImg.open (runAssemble atariDriver o .xex output segs run b).2 = .ok m ∧ m.findFile output = .ok x ∧
      parseXex x = .ok ps ∧ ps.map XSeg.view = (expectedSegs segs run).map Seg.view ∧
      ∀ n, n ≠ output → ∀ d, m.findFile n = .ok d ↔ M.get n = some d := by
  have hce : createExecutable .xex output segs run = .ok x := by
    unfold createExecutable
    cases he : exeKind output with
    | none => exact hx
    | some k => cases k with
      | xex => exact hx
      | bsave => exact absurd he hk
  have hne : x ≠ [] := by
    unfold getXex at hx
    cases hs : xexSegments segs run with
    | error e => rw [hs] at hx; cases hx
    | ok l => rw [hs] at hx; injection hx with hx; rw [← hx]; simp
  rw [runAssemble_add _ _ _ _ _ _ _ hce] at hok ⊢
  have hh' := (run_rep (c := .add [(output, x)]) hh hmax (o := o) ⟨hc, hne, hfull, trivial⟩).1
  rw [hok] at hh'
  have hskip : ¬ (output ∈ M.keys ∧ o.force = false) := by
    rintro ⟨h1, h2⟩
    rcases hnew with h | h
    · exact h h1
    · rw [h] at h2; cases h2
  have hM : (Cmd.add [(output, x)]).specR o M (.ok ()) = M.put output x := by
    unfold Cmd.specR Cmd.spec
    simp only [hdry, Bool.false_or]
    rw [if_neg (by unfold FMap.lastSkipped; simp only [decide_eq_true_eq]; exact hskip)]
    unfold FMap.addAll FMap.addAll FMap.addOne
    rw [if_neg hskip]
  rw [hM] at hh'
  obtain ⟨ps, p1, p2⟩ := C17_build_then_parse hw hx
  obtain ⟨m, m1, m2, _⟩ := C05_lookup hh' output
  refine ⟨m, ps, m1, (m2 x).mpr (by rw [get_put, if_pos rfl]), p1, p2, ?_⟩
  intro n hn d
  obtain ⟨m', k1, k2, _⟩ := C05_lookup hh' n
  rw [m1] at k1
  injection k1 with k1
  subst k1
  rw [k2 d, get_put, if_neg hn]

/-- **C64**: there is no error as long as the free sectors suffice -/
theorem C64_succeeds {h b M} {o : Opts} {output : Bytes} {segs : List Seg} {run : Option Nat} {x : Bytes} (hh : Holds h b M)
    (hdry : o.dryRun = false) (hnew : output ∉ M.keys) (hc : Canon83 output) (hfull : M.length < 64)
    (hk : exeKind output ≠ some .bsave) (hx : getXex segs run = .ok x) (hroom : sectorsNeeded h x.length ≤ (freePool h b).length) :
    (runAssemble atariDriver o .xex output segs run b).1 = .ok () := by
  have hce : createExecutable .xex output segs run = .ok x := by
    unfold createExecutable
    cases he : exeKind output with
    | none => exact hx
    | some k => cases k with
      | xex => exact hx
      | bsave => exact absurd he hk
  have hne : x ≠ [] := by
    unfold getXex at hx
    cases hs : xexSegments segs run with
    | error e => rw [hs] at hx; cases hx
    | ok l => rw [hs] at hx; injection hx with hx; rw [← hx]; simp
  obtain ⟨m, ds, h1, h2, h3, h4, h5⟩ := hh
  have r : Rep h m M := ⟨ds, h2, h4, h5⟩
  unfold runAssemble
  rw [show atariDriver.load b = .ok m from h1]
  simp only [hce]
  rcases r.write hnew hc hne hfull with ⟨m', k1, _⟩ | ⟨_, k1⟩
  · have e1 : saveFile atariDriver o output x m = (.ok true, m') := by
      unfold saveFile finishSave
      rw [r.find_not hnew]
      simp only [hdry, Bool.false_eq_true, if_false]
      rw [show atariDriver.write output x m = (.ok (), m') from k1]
    rw [e1]
  · rw [h4, h3] at k1; omega

/-- two segments with a run address on a blank single density disk, as `T.XEX` -/
example : ∃ m ps x, getXex [⟨0x600, [1, 2]⟩, ⟨0x80, [3]⟩] (some 0x601) = .ok x ∧
    AImg.open (runAssemble atariDriver {} .xex [0x54, 0x2e, 0x58, 0x45, 0x58] [⟨0x600, [1, 2]⟩, ⟨0x80, [3]⟩] (some 0x601) sdDisk).2 = .ok m ∧
    m.findFile [0x54, 0x2e, 0x58, 0x45, 0x58] = .ok x ∧ parseXex x = .ok ps ∧
    ps.map XSeg.view = [(0x2e0, [1, 6], .run), (0x600, [1, 2], .obj), (0x80, [3], .obj)] := by
  have hx : getXex [⟨0x600, [1, 2]⟩, ⟨0x80, [3]⟩] (some 0x601) =
    .ok [255, 255, 224, 2, 225, 2, 1, 6, 0, 6, 1, 6, 1, 2, 128, 0, 128, 0, 3] := by rfl
  have hc : Canon83 [0x54, 0x2e, 0x58, 0x45, 0x58] := by unfold Canon83; decide
  have hk : exeKind [0x54, 0x2e, 0x58, 0x45, 0x58] ≠ some .bsave := by decide
  have hok := C64_succeeds (o := {}) holds_sd rfl (by simp [FMap.keys]) hc (by decide) hk hx
    (by rw [sdDisk_pool]; decide)
  obtain ⟨m, ps, h1, h2, h3, h4, _⟩ := C64_atari (o := {}) holds_sd (by decide) rfl (.inl (by simp [FMap.keys])) hc (by decide) hk
    (by simp [Seg.Wf]) hx hok
  refine ⟨m, ps, _, hx, h1, h2, h3, h4.trans ?_⟩
  unfold expectedSegs
  rw [if_neg (by simp)]
  decide

/-- what BSAVE parsing makes of a file that was filled up to whole sectors -/
theorem parseBsave_padded {x : Bytes} {s : Seg} (h : parseBsave x = .ok s) :
    parseBsave (padded33 x) = if x.length % 256 = 0 then .ok s else .error .invalidBinaryFile := by
  by_cases hl : x.length % 256 = 0
  · rw [if_pos hl]
    unfold padded33
    rw [hl]; simpa using h
  · rw [if_neg hl]
    unfold padded33
    have hpad : (256 - x.length % 256) % 256 ≠ 0 := by omega
    generalize (256 - x.length % 256) % 256 = k at hpad
    match x, h with
    | a0 :: a1 :: c0 :: c1 :: d, h =>
      unfold parseBsave at h
      simp only [List.length_cons] at h
      split at h
      · cases h
      · rename_i hcount
        rw [Decidable.not_not] at hcount
        simp only [List.cons_append, parseBsave, List.length_cons, List.length_append, List.length_replicate]
        rw [if_pos (by omega)]

/-- **C64 fails on DOS 3.3**: the file is written, but what comes back when it is read has been filled up to whole sectors,
and the program's own BSAVE parser refuses it, unless its length happens to be a multiple of 256. -/
theorem C64_dos33 {cs b M} {o : Opts} {output : Bytes} {segs : List Seg} {run : Option Nat} {x : Bytes} {s : Seg} (hh : Holds33 cs b M)
    (hdry : o.dryRun = false) (hnew : output ∉ M.keys ∨ o.force = true) (hf : Fits33 output x)
    (hfull : (M.del output).length < 7 * (cs.length - 1)) (hk : exeKind output ≠ some .xex) (hx : getBsave segs run = .ok x)
    (hp : parseBsave x = .ok s) (hok : (runAssemble (dos33Driver 'B') o .bsave output segs run b).1 = .ok ()) :
    ∃ m, DImg.open (runAssemble (dos33Driver 'B') o .bsave output segs run b).2 = .ok m ∧ m.findFile output = .ok (padded33 x) ∧
      parseBsave (padded33 x) = if x.length % 256 = 0 then .ok s else .error .invalidBinaryFile := by
  have hce : createExecutable .bsave output segs run = .ok x := by
    unfold createExecutable
    cases he : exeKind output with
    | none => exact hx
    | some k => cases k with
      | bsave => exact hx
      | xex => exact absurd he hk
  rw [runAssemble_add _ _ _ _ _ _ _ hce] at hok ⊢
  have hh' := (run_sim (sim33 (t := 'B') (by decide) cs) ((holds33_iff 'B').mp hh) (c := .add [(output, x)]) (o := o) ⟨hf, hfull, trivial⟩).1
  rw [hok] at hh'
  have hskip : ¬ (output ∈ M.keys ∧ o.force = false) := by
    rintro ⟨h1, h2⟩
    rcases hnew with h | h
    · exact h h1
    · rw [h] at h2; cases h2
  have hM : (Cmd.add [(output, x)]).specR o M (.ok ()) = M.put output x := by
    unfold Cmd.specR Cmd.spec
    simp only [hdry, Bool.false_or]
    rw [if_neg (by unfold FMap.lastSkipped; simp only [decide_eq_true_eq]; exact hskip)]
    unfold FMap.addAll FMap.addAll FMap.addOne
    rw [if_neg hskip]
  rw [hM] at hh'
  obtain ⟨m, m1, m2, _⟩ := C14_lookup ((holds33_iff 'B').mpr hh') output
  exact ⟨m, m1, (m2 _).mpr ⟨x, by rw [get_put, if_pos rfl], rfl⟩, parseBsave_padded hp⟩

theorem C64_succeeds33 {cs b M} {o : Opts} {output : Bytes} {segs : List Seg} {run : Option Nat} {x : Bytes} (hh : Holds33 cs b M)
    (hdry : o.dryRun = false) (hnew : output ∉ M.keys) (hf : Fits33 output x) (hfull : M.length < 7 * (cs.length - 1))
    (hk : exeKind output ≠ some .xex) (hx : getBsave segs run = .ok x)
    (hroom : dataSecs33 x.length + listSecs33 x.length ≤ (freePool33 b).length) :
    (runAssemble (dos33Driver 'B') o .bsave output segs run b).1 = .ok () := by
  have hce : createExecutable .bsave output segs run = .ok x := by
    unfold createExecutable
    cases he : exeKind output with
    | none => exact hx
    | some k => cases k with
      | bsave => exact hx
      | xex => exact absurd he hk
  obtain ⟨m, ds, h1, h2, h3, h4⟩ := hh
  have r : Rep33 cs m M := ⟨ds, h2, h4⟩
  unfold runAssemble
  rw [show (dos33Driver 'B').load b = .ok m from h1]
  simp only [hce]
  have hw : (DImg.writeFile output 4 x m).1 = .ok () := by
    refine (C10_write_succeeds_iff h2 (by decide) (by decide) ?_).mpr ⟨hf.2.2, hf.2.1, by rw [r.length]; exact hfull, by rw [h3]; exact hroom⟩
    rw [hf.1]; exact fun hx => hnew (r.names.subset hx)
  cases hwf : DImg.writeFile output 4 x m with
  | mk r' m' =>
    rw [hwf] at hw
    simp only at hw
    subst hw
    have e1 : saveFile (dos33Driver 'B') o output x m = (.ok true, m') := by
      unfold saveFile finishSave
      rw [(sim33 (t := 'B') (by decide) cs).find_not r hnew]
      simp only [hdry, Bool.false_eq_true, if_false]
      rw [show (dos33Driver 'B').write output x m = (.ok (), m') from hwf]
    rw [e1]

/-- three bytes at 0x2000 assembled to `T.BIN` on a blank DOS 3.3 disk: the file read back is refused by the BSAVE parser -/
theorem C64_refuted_dos33 : ∃ m x, DImg.open (runAssemble (dos33Driver 'B') {} .bsave [0x54, 0x2e, 0x42, 0x49, 0x4e] [⟨0x2000, [1, 2, 3]⟩] none blank33).2 = .ok m ∧
    m.findFile [0x54, 0x2e, 0x42, 0x49, 0x4e] = .ok x ∧ x.length = 256 ∧ x.take 7 = [0x00, 0x20, 3, 0, 1, 2, 3] ∧
    parseBsave x = .error .invalidBinaryFile := by
  have hx : getBsave [⟨0x2000, [1, 2, 3]⟩] none = .ok [0x00, 0x20, 3, 0, 1, 2, 3] := by rfl
  have hf : Fits33 [0x54, 0x2e, 0x42, 0x49, 0x4e] [0x00, 0x20, 3, 0, 1, 2, 3] := ⟨by decide, by unfold Ascii33; decide, by decide⟩
  have hk : exeKind [0x54, 0x2e, 0x42, 0x49, 0x4e] ≠ some .xex := by decide
  have hok := C64_succeeds33 (o := {}) holds_blank33 rfl (by simp [FMap.keys]) hf (by decide) hk hx (by rw [template33_pool blank33_template]; decide)
  obtain ⟨m, h1, h2, h3⟩ := C64_dos33 (o := {}) holds_blank33 rfl (.inl (by simp [FMap.keys])) hf (by decide) hk hx
    (by decide : parseBsave [0x00, 0x20, 3, 0, 1, 2, 3] = .ok ⟨0x2000, [1, 2, 3]⟩) hok
  refine ⟨m, _, h1, h2, by decide +kernel, by decide +kernel, ?_⟩
  rw [h3]; decide

end Atr
