import Verif.Props.Program
/-! # C83: new images from templates, and the current directory as an image -/
namespace Atr

theorem isPrefixOf_iff {p s : Bytes} : p.isPrefixOf s = true ↔ ∃ b, s = p ++ b := by
  rw [List.isPrefixOf_iff_prefix]
  exact ⟨fun ⟨b, h⟩ => ⟨b, h.symm⟩, fun ⟨b, h⟩ => ⟨b, h.symm⟩⟩

theorem hasInfix_iff {p : Bytes} : ∀ {n : Bytes}, hasInfix p n = true ↔ ∃ a b, n = a ++ p ++ b := by
  intro n
  induction n with
  | nil =>
    unfold hasInfix
    constructor
    · intro h; exact ⟨[], [], by simpa using h⟩
    · rintro ⟨a, b, h⟩
      have := congrArg List.length h
      simp only [List.length_nil, List.length_append] at this
      have : p = [] := List.eq_nil_of_length_eq_zero (by omega)
      rw [this]; rfl
  | cons x s ih =>
    unfold hasInfix
    rw [Bool.or_eq_true, ih, isPrefixOf_iff]
    constructor
    · rintro (⟨b, h⟩ | ⟨a, b, h⟩)
      · exact ⟨[], b, h⟩
      · exact ⟨x :: a, b, by rw [h]; rfl⟩
    · rintro ⟨a, b, h⟩
      cases a with
      | nil => exact .inl ⟨b, h⟩
      | cons y a =>
        simp only [List.cons_append, List.cons.injEq] at h
        exact .inr ⟨a, b, h.2⟩

/-- `t` is the only template whose name contains the text -/
def Selects (W : World) (text : Bytes) (t : Bytes × Bytes) : Prop :=
  ∃ i, W.templates[i]? = some t ∧ (∃ a b, t.1 = a ++ text ++ b) ∧ ∀ (j : Nat) (u : Bytes × Bytes), W.templates[j]? = some u → (∃ a b, u.1 = a ++ text ++ b) → j = i

theorem matching_iff {W : World} {text : Bytes} {t : Bytes × Bytes} : W.matching text = [t] ↔ Selects W text t := by
  unfold World.matching Selects
  generalize W.templates = l
  have nothing : ∀ l : List (Bytes × Bytes), l.filter (fun t => hasInfix text t.1) = [] ↔ ∀ (j : Nat) (u : Bytes × Bytes), l[j]? = some u → ¬ ∃ a b, u.1 = a ++ text ++ b := by
    intro l
    rw [List.filter_eq_nil_iff]
    constructor
    · intro h j u hj hu
      exact h u (List.mem_of_getElem? hj) (hasInfix_iff.mpr hu)
    · intro h u hu e
      obtain ⟨j, hj⟩ := List.mem_iff_getElem?.mp hu
      exact h j u hj (hasInfix_iff.mp e)
  induction l with
  | nil => constructor
           · intro h; cases h
           · rintro ⟨i, h, -⟩; simp at h
  | cons u l ih =>
    rw [List.filter_cons]
    by_cases hu : hasInfix text u.1 = true
    · rw [if_pos hu]
      constructor
      · intro h
        obtain ⟨rfl, h2⟩ := List.cons.inj h
        refine ⟨0, rfl, hasInfix_iff.mp hu, ?_⟩
        intro j v hj hv
        cases j with
        | zero => rfl
        | succ j => exact absurd hv ((nothing l).mp h2 j v hj)
      · rintro ⟨i, h1, h2, h3⟩
        have hi := h3 0 u rfl (hasInfix_iff.mp hu)
        subst hi
        have hut : u = t := Option.some.inj h1
        rw [hut]
        have : l.filter (fun t => hasInfix text t.1) = [] := (nothing l).mpr fun j v hj hv => by
          have := h3 (j + 1) v hj hv
          omega
        rw [this]
    · rw [if_neg hu]
      refine Iff.trans ih ?_
      constructor
      · rintro ⟨i, h1, h2, h3⟩
        refine ⟨i + 1, h1, h2, ?_⟩
        intro j v hj hv
        cases j with
        | zero => exact absurd (hasInfix_iff.mpr hv) (by rw [← Option.some.inj hj]; exact hu)
        | succ j => rw [h3 j v hj hv]
      · rintro ⟨i, h1, h2, h3⟩
        cases i with
        | zero => exact absurd (hasInfix_iff.mpr h2) (by rw [← Option.some.inj h1]; exact hu)
        | succ i => exact ⟨i, h1, h2, fun j v hj hv => by have := h3 (j + 1) v hj hv; omega⟩

/-- **C83, creating.** `create` makes a new image exactly if one template has the text in its name and the image does not exist
yet or `-f` is given; its contents are those of the template, byte by byte. -/
theorem C83_create (W : World) (force : Bool) (text name : Bytes) (h : Host) (hn : name ≠ [0x2e]) :
    (∀ t, Selects W text t → (force = true ∨ h.files.get name = none) →
      ((Command.create force text).main W false name h).2 = h.write name t.2) ∧
    ((¬ ∃ t, Selects W text t) → (Command.create force text).main W false name h = (.ok (), h)) ∧
    (h.files.get name ≠ none → force = false → (Command.create force text).main W false name h = (.ok (), h)) := by
  have e : (Command.create force text).main W false name h = createImage W false force text name h := rfl
  rw [e]
  unfold createImage
  refine ⟨?_, ?_, ?_⟩
  · intro t ht hf
    rw [matching_iff.mpr ht]
    simp only
    rw [if_neg (by decide), if_neg (by rcases hf with hf | hf <;> simp [hf]), if_neg (show ¬ name = dotName from hn)]
    split <;> rfl
  · intro ht
    split
    · next t hm => exact absurd ⟨t, matching_iff.mp hm⟩ ht
    · rfl
  · intro hs hf
    split
    · rw [if_neg (by decide), if_pos (by rw [hf]; cases hg : h.files.get name with
        | none => exact absurd hg hs
        | some _ => rfl)]
    · rfl

/-- **C83, result.** The run fails exactly if the new image, already written, is not recognised. -/
theorem C83_result {W : World} {force : Bool} {text name : Bytes} {h : Host} (hn : name ≠ [0x2e]) {t} (ht : Selects W text t)
    (hf : force = true ∨ h.files.get name = none) :
    ((Command.create force text).main W false name h).1 = (detect W.libs t.2).map fun _ => () := by
  have e : (Command.create force text).main W false name h = createImage W false force text name h := rfl
  rw [e]
  unfold createImage
  rw [matching_iff.mpr ht]
  simp only
  rw [if_neg (by decide), if_neg (by rcases hf with hf | hf <;> simp [hf]), if_neg (show ¬ name = dotName from hn)]
  cases detect W.libs t.2 <;> rfl

/-- the templates in `/repo/atrcopy/templates`; every one has an `.inf` file -/
def shippedNames : List Bytes := ["dos2dd.atr", "dos2ed+2.5.atr", "dos2ed.atr", "dos2sd+2.0s.atr", "dos2sd.atr", "dos33.dsk", "dos33autobrun.dsk"].map ascii

/-- **C83, the shipped templates.** Each of them is selected by its full name, whatever its contents. -/
theorem C83_shipped {W : World} (hw : W.templates.map (·.1) = shippedNames) : ∀ t ∈ W.templates, Selects W t.1 t := by
  intro t ht
  obtain ⟨i, hi⟩ := List.mem_iff_getElem?.mp ht
  refine ⟨i, hi, ⟨[], [], by simp⟩, ?_⟩
  intro j u hj hu
  have hi' : shippedNames[i]? = some t.1 := by rw [← hw, List.getElem?_map, hi]; rfl
  have hj' : shippedNames[j]? = some u.1 := by rw [← hw, List.getElem?_map, hj]; rfl
  have key : ∀ i ∈ List.range 7, ∀ j ∈ List.range 7, hasInfix (shippedNames.getD i []) (shippedNames.getD j []) = true → j = i := by decide +kernel
  have li : i < 7 := by have := (List.getElem?_eq_some_iff.mp hi').1; exact this
  have lj : j < 7 := by have := (List.getElem?_eq_some_iff.mp hj').1; exact this
  refine key i (List.mem_range.mpr li) j (List.mem_range.mpr lj) ?_
  rw [List.getD_eq_getElem?_getD, List.getD_eq_getElem?_getD, hi', hj']
  exact hasInfix_iff.mpr hu

/-- **C83, ambiguous names.** The names listed in the README (276-296), "dos2ed", "dos2sd" and "dos33", select no
template: there are two of each. -/
theorem C83_ambiguous {W : World} (hw : W.templates.map (·.1) = shippedNames) :
    ∀ text ∈ ["dos2ed", "dos2sd", "dos33"].map ascii, ¬ ∃ t, Selects W text t := by
  intro text ht
  rintro ⟨t, i, h1, h2, h3⟩
  have key : ∀ text ∈ ["dos2ed", "dos2sd", "dos33"].map ascii, ∃ j ∈ List.range 7, ∃ j' ∈ List.range 7, j ≠ j' ∧
      hasInfix text (shippedNames.getD j []) = true ∧ hasInfix text (shippedNames.getD j' []) = true := by decide +kernel
  obtain ⟨j, hj, j', hj', hne, k1, k2⟩ := key text ht
  have get : ∀ j ∈ List.range 7, ∃ u, W.templates[j]? = some u ∧ shippedNames.getD j [] = u.1 := by
    intro j hj
    have hl : W.templates.length = 7 := by rw [← List.length_map (f := (·.1)), hw]; rfl
    rw [List.mem_range] at hj
    refine ⟨W.templates[j], List.getElem?_eq_getElem (by omega), ?_⟩
    rw [← hw, List.getD_eq_getElem?_getD, List.getElem?_map, List.getElem?_eq_getElem (by omega)]
    rfl
  obtain ⟨u, g1, g2⟩ := get j hj
  obtain ⟨u', g1', g2'⟩ := get j' hj'
  rw [g2] at k1
  rw [g2'] at k2
  exact hne ((h3 j u g1 (hasInfix_iff.mp k1)).trans (h3 j' u' g1' (hasInfix_iff.mp k2)).symm)

/-! ### the current directory -/

/-- **C83, copying.** With the image "." and a file type, `add` copies the files into the current directory under their base names;
files that exist are kept unless `-f` is given.  The base names have to be distinct, and no file may be written before it is
read. -/
theorem C83_local_add {W : World} {force : Bool} {ft : List Char} (hft : ft ≠ []) {content : Bytes → Bytes} {paths : List Bytes} {h : Host}
    (hp : ∀ p ∈ paths, h.files.get p = some (content p)) (hnd : (paths.map baseName).Nodup)
    (hr : ∀ p ∈ paths, ∀ q ∈ paths, baseName p = q → p = q) :
    ((Command.add force ft paths).main W false [0x2e] h).1 = .ok () ∧
    (∀ p ∈ paths, ((Command.add force ft paths).main W false [0x2e] h).2.files.get (baseName p) =
      match h.files.get (baseName p) with
      | none => some (content p)
      | some old => some (if force then content p else old)) ∧
    ∀ x, x ∉ paths.map baseName → ((Command.add force ft paths).main W false [0x2e] h).2.files.get x = h.files.get x := by
  have key : ∀ (ps : List Bytes) (h : Host), (∀ p ∈ ps, h.files.get p = some (content p)) → (ps.map baseName).Nodup →
      (∀ p ∈ ps, ∀ q ∈ ps, baseName p = q → p = q) →
      (localAdd { force := force } ps h).1 = .ok () ∧
      (∀ p ∈ ps, (localAdd { force := force } ps h).2.files.get (baseName p) =
        match h.files.get (baseName p) with
        | none => some (content p)
        | some old => some (if force then content p else old)) ∧
      ∀ x, x ∉ ps.map baseName → (localAdd { force := force } ps h).2.files.get x = h.files.get x := by
    intro ps
    induction ps with
    | nil => intro h _ _ _; exact ⟨rfl, fun _ h => (by cases h), fun _ _ => rfl⟩
    | cons p ps ih =>
      intro h hp hnd hr
      rw [List.map_cons, List.nodup_cons] at hnd
      have hread : h.read p = .ok (content p) := by unfold Host.read; rw [hp p (by simp)]
      have hs : ∀ x, (localSave { force := force } h (baseName p) (content p)).files.get x =
          if x = baseName p then (match h.files.get (baseName p) with
            | none => some (content p)
            | some old => some (if force then content p else old)) else h.files.get x := by
        intro x
        unfold localSave
        cases hg : h.files.get (baseName p) with
        | none =>
          rw [if_neg (by simp), if_neg (by simp)]
          show (h.files.put _ _).get x = _
          rw [get_put]
        | some old =>
          cases force with
          | true =>
            rw [if_neg (by simp), if_neg (by simp)]
            show (h.files.put _ _).get x = _
            rw [get_put]; rfl
          | false =>
            rw [if_pos (by simp)]
            split
            · next e => rw [e, hg]; rfl
            · rfl
      have hne : ∀ q ∈ ps, q ≠ baseName p := by
        intro q hq e
        have := hr p (by simp) q (by simp [hq]) e.symm
        subst this
        exact hnd.1 (List.mem_map.mpr ⟨p, hq, rfl⟩)
      obtain ⟨i1, i2, i3⟩ := ih (localSave { force := force } h (baseName p) (content p))
        (fun q hq => by rw [hs, if_neg (hne q hq)]; exact hp q (by simp [hq])) hnd.2
        (fun a ha b hb => hr a (by simp [ha]) b (by simp [hb]))
      have el : localAdd { force := force } (p :: ps) h = localAdd { force := force } ps (localSave { force := force } h (baseName p) (content p)) := by
        conv => lhs; unfold localAdd
        rw [hread]
      rw [el]
      refine ⟨i1, ?_, ?_⟩
      · intro q hq
        rcases List.mem_cons.mp hq with rfl | hq
        · rw [i3 _ hnd.1, hs, if_pos rfl]
        · rw [i2 q hq, hs, if_neg]
          intro e
          exact hnd.1 (List.mem_map.mpr ⟨q, hq, e⟩)
      · intro x hx
        rw [List.map_cons, List.mem_cons, not_or] at hx
        rw [i3 x hx.2, hs, if_neg hx.1]
  have e : (Command.add force ft paths).main W false [0x2e] h =
      (match localAdd { force := force } paths h with
      | (.error e, h) => (.error (.py e), h)
      | (.ok _, h) => (.ok (), h)) := by
    show (Command.add force ft paths).onLocal W false h = _
    unfold Command.onLocal
    simp only
    rw [if_neg (by cases ft with
      | nil => exact absurd rfl hft
      | cons => simp)]
    generalize localAdd _ paths h = y
    obtain ⟨r, s⟩ := y
    cases r <;> rfl
  rw [e]
  obtain ⟨k1, k2, k3⟩ := key paths h hp hnd hr
  revert k1 k2 k3
  generalize localAdd _ paths h = y
  intro k1 k2 k3
  obtain ⟨r, s⟩ := y
  simp only at k1
  subst k1
  exact ⟨rfl, k2, k3⟩

/-- **C83, refuted.** `delete` on the image "." reports every file as removed and ends successfully, but no file is removed. -/
theorem C83_local_delete (W : World) (dry force : Bool) (names : List Bytes) (h : Host) :
    (Command.delete force names).main W dry [0x2e] h = (.ok (), h) := rfl

/-- the other commands fail on the image ".", and so does `add` without a file type -/
theorem C83_local_fails (W : World) (dry : Bool) (h : Host) (c : Command)
    (hc : match c with
      | .list .. | .crc _ | .segments | .vtoc _ => True
      | .add _ ft _ => ft = []
      | .extract x names => x.all = true ∨ ∃ n ∈ names, h.files.get n ≠ none
      | _ => False) : c.main W dry [0x2e] h = (.error (.py .attributeError), h) := by
  cases c with
  | list | crc | segments | vtoc => rfl
  | add f ft ps => subst hc; rfl
  | extract x names =>
    show (Command.extract x names).onLocal W dry h = _
    unfold Command.onLocal
    simp only
    rw [if_pos]
    rw [Bool.or_eq_true]
    rcases hc with hc | ⟨n, h1, h2⟩
    · exact .inl hc
    · exact .inr (List.any_eq_true.mpr ⟨n, h1, by cases hg : h.files.get n with
        | none => exact absurd hg h2
        | some _ => rfl⟩)
  | delete | assemble | create | boot => exact hc.elim

/-! ### examples -/

/-- two files are copied into the current directory, one of which exists there -/
example (W : World) : ((Command.add false ['B'] [ascii "d/A", ascii "d/C"]).main W false [0x2e]
    { files := [(ascii "d/A", [1]), (ascii "d/C", [2]), (ascii "C", [3])] }).2.files = [(ascii "A", [1]), (ascii "d/A", [1]), (ascii "d/C", [2]), (ascii "C", [3])] := rfl

example : baseName (ascii "/tmp/x/GAME.XEX") = ascii "GAME.XEX" ∧ baseName (ascii "GAME.XEX") = ascii "GAME.XEX" ∧ baseName (ascii "x/") = [] := by decide +kernel

/-- the template `dos2sd.atr` is a substring of no other name -/
example (d : Bytes) : Selects { libs := magicLibs, templates := shippedNames.map fun n => (n, d) } (ascii "dos2sd.atr") (ascii "dos2sd.atr", d) :=
  C83_shipped (W := { libs := magicLibs, templates := shippedNames.map fun n => (n, d) }) (by rw [List.map_map]; exact List.map_id _) _
    (List.mem_map.mpr ⟨ascii "dos2sd.atr", by decide +kernel, rfl⟩)

end Atr
