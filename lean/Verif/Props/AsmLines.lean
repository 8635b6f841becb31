import Verif.Model.AsmLines
import Verif.Spec.AsmLines
import Verif.Props.SegLines
import Verif.Props.ObjFiles
/-!
# C125: what `assemble -v` prints
-/
namespace Atr

theorem lastSigned_pctX (w : Nat) (i : Int) (t p : List Char) (c : Char) (h1 : isHexDigit c = false) (h2 : c ≠ '-') :
    lastSigned (p ++ [c]) (t ++ (p ++ [c]) ++ pctX w i) = some (i, t) := by
  unfold lastSigned
  cases i with
  | ofNat n =>
    rw [show pctX w (Int.ofNat n) = pctX w (n : Nat) from rfl, lastHex_pctX w n (by rw [← List.append_assoc]; exact noLast_snoc h1)]
    simp only [Option.bind_eq_bind, Option.bind_some]
    rw [endsIn_append]
    rfl
  | negSucc n =>
    obtain ⟨k1, k2, k3⟩ := filled_hex (w - 1 - (Nat.toDigits 16 (n + 1)).length) (n + 1)
    have := lastNumber_append (base := 16) (t := t ++ (p ++ [c]) ++ ['-']) k1 k2 (noLast_snoc (by decide))
    rw [k3] at this
    rw [show t ++ (p ++ [c]) ++ pctX w (Int.negSucc n) =
      (t ++ (p ++ [c]) ++ ['-']) ++ (List.replicate (w - 1 - (Nat.toDigits 16 (n + 1)).length) '0' ++ Nat.toDigits 16 (n + 1)) by simp [pctX]]
    rw [show lastHex _ = _ from this]
    simp only [Option.bind_eq_bind, Option.bind_some]
    rw [endsIn_differ p (t ++ (p ++ [c])) (q := [c]) (q' := ['-']) rfl (by simpa using h2)]
    simp only
    rw [show t ++ (p ++ [c]) ++ ['-'] = t ++ (p ++ [c] ++ ['-']) by simp, endsIn_append]
    rfl

theorem lastPlace_some (t : List Char) (o : Nat) : lastPlace (t ++ " bytes @ ".toList ++ pctX 4 o) = some (some o, t) := by
  have hh := lastHex_pctX 4 o (t := t ++ " bytes @ ".toList)
    (by rw [show " bytes @ ".toList = " bytes @".toList ++ [' '] from rfl, ← List.append_assoc]; exact noLast_snoc (by decide))
  have hn : endsIn " bytes".toList (t ++ " bytes @ ".toList ++ pctX 4 o) = none := by
    obtain ⟨k1, k2, _⟩ := filled_hex (4 - (Nat.toDigits 16 o).length) o
    obtain ⟨r, c, e, hc⟩ := snoc_of k1 k2
    have e' : pctX 4 (o : Nat) = r ++ [c] := e
    rw [e', ← List.append_assoc]
    exact endsIn_differ " byte".toList _ (q := ['s']) (q' := [c]) rfl (by
      intro h
      injection h with h
      rw [← h] at hc
      exact absurd hc (by decide))
  unfold lastPlace
  rw [hn, hh]
  simp only [Option.bind_eq_bind, Option.bind_some]
  rw [endsIn_append]
  rfl

theorem lastPlace_none (t : List Char) : lastPlace (t ++ " bytes".toList) = some (none, t) := by
  unfold lastPlace
  rw [endsIn_append]

/-- **C125, the line.** The line about a segment says its first address, the first address behind it and its length, whatever they are, and says them all twice without
contradiction; the first address is repeated in brackets exactly when it is positive. -/
theorem C125_line (o : Int) (d : Bytes) :
    readAsmLine (asmLine (o, d)) = some (o, o + d.length, d.length, if o > 0 then some o.toNat else none) := by
  generalize hn : d.length = n
  have e : asmLine (o, d) = (pctX 4 o ++ " - ".toList ++ pctX 4 (o + n) ++ ", size=".toList ++ pctX 4 n ++ " ($".toList ++ pctX 0 n) ++
      (" bytes".toList ++ (if o > 0 then " @ ".toList ++ pctX 4 o else [])) ++ " - ".toList ++ pctX 4 (o + n) ++ ")".toList := by
    unfold asmLine addedSeg LSeg.line
    simp only [hn]
    rw [show ")".toList = [')'] from rfl, List.dropLast_concat]
    simp
  have hpl : ∀ t, lastPlace (t ++ (" bytes".toList ++ (if o > 0 then " @ ".toList ++ pctX 4 o else []))) = some (if o > 0 then some o.toNat else none, t) := by
    intro t
    by_cases h : o > 0
    · rw [if_pos h, if_pos h]
      have := lastPlace_some t o.toNat
      rw [Int.toNat_of_nonneg (by omega)] at this
      rw [← this]
      congr 1
      simp
    · rw [if_neg h, if_neg h, List.append_nil]
      exact lastPlace_none t
  have hsep : " - ".toList = " -".toList ++ [' '] := rfl
  unfold readAsmLine
  rw [e, endsIn_append]
  simp only [Option.bind_eq_bind, Option.bind_some]
  rw [hsep, lastSigned_pctX 4 _ _ " -".toList ' ' (by decide) (by decide)]
  simp only [Option.bind_some]
  rw [hpl]
  simp only [Option.bind_some]
  rw [lastHex_pctX 0 n (by rw [show " ($".toList = " (".toList ++ ['$'] from rfl, ← List.append_assoc]; exact noLast_snoc (by decide))]
  simp only [Option.bind_some]
  rw [endsIn_append]
  simp only [Option.bind_some]
  rw [lastHex_pctX 4 n (by rw [show ", size=".toList = ", size".toList ++ ['='] from rfl, ← List.append_assoc]; exact noLast_snoc (by decide))]
  simp only [Option.bind_some]
  rw [endsIn_append]
  simp only [Option.bind_some]
  rw [lastSigned_pctX 4 _ _ " -".toList ' ' (by decide) (by decide)]
  simp only [Option.bind_some]
  have := lastSigned_pctX 4 o [] [] ' ' (by decide) (by decide)
  rw [show " ".toList = [] ++ [' '] from rfl, show ' ' :: pctX 4 o = [] ++ ([] ++ [' ']) ++ pctX 4 o from rfl, this]
  simp

theorem pctX_line (w : Nat) (i : Int) : '\n' ∉ pctX w i := by
  have hd : ∀ n k, '\n' ∉ List.replicate k '0' ++ Nat.toDigits 16 n := fun n k h => absurd ((filled_hex k n).1 _ h) (by decide)
  cases i with
  | ofNat n => exact hd _ _
  | negSucc n =>
    intro h
    rcases List.mem_cons.mp h with h | h
    · exact absurd h (by decide)
    · exact hd _ _ h

theorem asmLine_line (s : Int × Bytes) : '\n' ∉ asmLine s := by
  obtain ⟨o, d⟩ := s
  have h1 := pctX_line 4 o
  have h2 := pctX_line 4 (o + d.length)
  have h3 := pctX_line 4 d.length
  have h4 := pctX_line 0 d.length
  intro h
  unfold asmLine at h
  simp only [List.mem_append] at h
  rcases h with ((h | h) | h) | h
  · have h := List.dropLast_subset _ h
    unfold addedSeg LSeg.line at h
    simp only [List.mem_append] at h
    rcases h with ((((h | h) | h) | h) | h) | h
    · rcases h with (((h | h) | h) | h) | h
      · exact h1 h
      · exact absurd h (by decide)
      · exact h2 h
      · exact absurd h (by decide)
      · exact h3 h
    · exact absurd h (by decide)
    · exact h4 h
    · exact absurd h (by decide)
    · split at h
      · rcases List.mem_append.mp h with h | h
        · exact absurd h (by decide)
        · exact h1 h
      · cases h
    · exact absurd h (by decide)
  · exact absurd h (by decide)
  · exact h2 h
  · exact absurd h (by decide)

theorem toSegs_ok : ∀ {l : List (Int × Bytes)} {segs : List Seg}, toSegs l = .ok segs → l = segs.map fun s => ((s.origin : Int), s.data)
  | [], segs, h => by
    injection h with h
    rw [← h]; rfl
  | (o, d) :: l, segs, h => by
    unfold toSegs at h
    split at h
    · cases h
    · rename_i ho
      cases hl : toSegs l with
      | error e => rw [hl] at h; cases h
      | ok l' =>
        rw [hl] at h
        injection h with h
        rw [← h, List.map_cons, ← toSegs_ok hl, Int.toNat_of_nonneg (by omega)]

/-- **C125, all lines.** Whenever the arguments of `assemble` give a program, one line is printed for each of its segments, in the order of the program, and the line says
where the segment is, where it ends and how long it is. -/
theorem C125_printed {W : World} {h : Host} {a : AsmArgs} {segs : List Seg} {run : Option Nat} (hb : a.build W h = .ok (segs, run)) :
    ∃ t, a.printed W h = .ok t ∧ (linesOf t).map readAsmLine =
      segs.map fun s => some ((s.origin : Int), (s.origin : Int) + s.data.length, s.data.length, if s.origin = 0 then none else some s.origin) := by
  unfold AsmArgs.build at hb
  unfold AsmArgs.printed
  cases hd : dataLoop h.readText (a.data.headD []) with
  | error e => rw [hd] at hb; cases hb
  | ok ds =>
    rw [hd] at hb
    simp only at hb
    cases ho : objFiles W h (a.objs.headD []) with
    | error e => rw [ho] at hb; cases hb
    | ok objs =>
      rw [ho] at hb
      simp only at hb ⊢
      cases hs : assembleSegments h.readText (a.data.headD []) objs a.run with
      | error e => rw [hs] at hb; cases hb
      | ok r =>
        obtain ⟨l, r⟩ := r
        rw [hs] at hb
        simp only at hb ⊢
        cases ht : toSegs l with
        | error e => rw [ht] at hb; cases hb
        | ok segs' =>
          rw [ht] at hb
          simp only at hb
          have hseg : segs' = segs := by
            cases r with
            | none => cases hb; rfl
            | some r =>
              simp only at hb
              split at hb
              · cases hb
              · cases hb; rfl
          rw [hseg] at ht
          refine ⟨_, rfl, ?_⟩
          rw [C87_lines _ (fun t ht => by
            obtain ⟨s, _, rfl⟩ := List.mem_map.mp ht
            exact asmLine_line s), toSegs_ok ht, List.map_map, List.map_map]
          refine List.map_congr_left fun s _ => ?_
          show readAsmLine (asmLine ((s.origin : Int), s.data)) = _
          rw [C125_line]
          by_cases hz : s.origin = 0
          · rw [hz]; rfl
          · rw [if_pos (by omega), if_neg hz]
            rfl

/-- the lines of a program given by data and object files -/
theorem C125_args {W : World} {h : Host} {gs : List Given} (hg : ∀ g ∈ gs, g.Ok h) {os : List ObjGiven} (ho : ∀ o ∈ os, o.Ok W.libs h)
    {run : Option Nat} {t : List Char} (hr : RunTyped run t) (more : List (List (List Char))) (more' : List (List Bytes)) :
    ∃ p, ({ data := gs.map Given.arg :: more, objs := os.map (·.path) :: more', run := t } : AsmArgs).printed W h = .ok p ∧
      (linesOf p).map readAsmLine = (gs.map Given.seg ++ os.flatMap (·.parts)).map fun s =>
        some ((s.origin : Int), (s.origin : Int) + s.data.length, s.data.length, if s.origin = 0 then none else some s.origin) :=
  C125_printed (C111_args W hg ho hr more more')

/-- some lines -/
example : asmLine (0x600, [1, 2, 3]) = "0600 - 0603, size=0003 ($3 bytes @ 0600 - 0603)".toList ∧
    asmLine (0, [1, 2]) = "0000 - 0002, size=0002 ($2 bytes - 0002)".toList ∧
    asmLine (-5, [1, 2]) = "-005 - -003, size=0002 ($2 bytes - -003)".toList ∧
    readAsmLine "0600 - 0603, size=0003 ($3 bytes @ 0600 - 0604)".toList = none := by decide +kernel

/-- a data file and an executable -/
example (W : World) (hW : W.libs = magicLibs) : ∃ p, ({ data := [["a@$2000".toList]], objs := [[ascii "x"]] } : AsmArgs).printed W
      { files := [(ascii "a", [0xa9]), (ascii "x", smallXex)] } = .ok p ∧
    (linesOf p).map readAsmLine = [some (0x2000, 0x2001, 1, some 0x2000), some (0x600, 0x603, 3, some 0x600)] := by
  refine C125_args (gs := [⟨"a".toList, "$2000".toList, 0x2000, [0xa9]⟩]) (os := [⟨ascii "x", [⟨0x600, [1, 2, 3]⟩], [0x601]⟩]) ?_ ?_ .none [] []
  · intro g hg
    rw [List.mem_singleton.mp hg]
    exact ⟨.dollar ⟨[('2', 2), ('0', 0), ('0', 0), ('0', 0)], by decide, by decide, by decide, by decide⟩, by decide, by decide, by decide +kernel⟩
  · rw [hW]
    intro o ho
    rw [List.mem_singleton.mp ho]
    exact ⟨by decide, _, by decide +kernel, smallXex_gives⟩

end Atr
