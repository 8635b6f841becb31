import Verif.Model.Parsers
import Verif.Lemmas.Basic
/-!
# C34, C35, C55: containers, parser selection, signatures
-/
namespace Atr

/-! ### C34 -/

/-- the header of a DCM file that is recognised: archive byte, pass one, one of the three densities -/
def IsDcm (raw : Bytes) : Prop :=
  ∃ t f rest, raw = t :: f :: rest ∧ (t.toNat = 0xf9 ∨ t.toNat = 0xfa) ∧ f.toNat % 32 = 1 ∧ f.toNat / 32 % 4 < 3

theorem dcm_flags (f : UInt8) : ((f &&& 0x1f ≠ 1) ↔ f.toNat % 32 ≠ 1) ∧ ((f >>> 5) &&& 3 ∉ dcmDensities ↔ ¬ f.toNat / 32 % 4 < 3) := by
  have : ∀ n, n < 256 → ((UInt8.ofNat n &&& 0x1f ≠ 1) ↔ (UInt8.ofNat n).toNat % 32 ≠ 1) ∧
      ((UInt8.ofNat n >>> 5) &&& 3 ∉ dcmDensities ↔ ¬ (UInt8.ofNat n).toNat / 32 % 4 < 3) := by decide +kernel
  have h := this f.toNat f.toNat_lt
  rwa [UInt8.ofNat_toNat] at h

/-- **C34, DCM.** Data is recognised as DCM (and refused as unsupported) exactly if it begins with a DCM header of a known
density; all other data is "not a DCM container". -/
theorem C34_dcm (raw : Bytes) : (IsDcm raw → dcmUnpack raw = .error (.py .unsupportedContainer)) ∧
    (¬ IsDcm raw → dcmUnpack raw = .error (.py .invalidContainer)) := by
  have ht : ∀ t : UInt8, (t = 0xf9 ∨ t = 0xfa) ↔ (t.toNat = 0xf9 ∨ t.toNat = 0xfa) := by
    intro t
    rw [← UInt8.toNat_inj, ← UInt8.toNat_inj]; rfl
  match raw with
  | [] =>
    constructor
    · rintro ⟨_, _, _, h, _⟩; cases h
    · intro _; rfl
  | [t] =>
    constructor
    · rintro ⟨_, _, _, h, _⟩; cases h
    · intro _
      show (if t = 0xf9 ∨ t = 0xfa then _ else _) = _
      split <;> rfl
  | t :: f :: rest =>
    have hu : dcmUnpack (t :: f :: rest) = if t = 0xf9 ∨ t = 0xfa then
        (if f &&& 0x1f ≠ 1 then .error (.py .invalidContainer) else if (f >>> 5) &&& 3 ∉ dcmDensities then .error (.py .invalidContainer)
          else .error (.py .unsupportedContainer)) else .error (.py .invalidContainer) := rfl
    have hf := dcm_flags f
    rw [hu]
    constructor
    · rintro ⟨t', f', rest', h, h1, h2, h3⟩
      injection h with e1 h
      injection h with e2 e3
      subst e1; subst e2
      rw [if_pos ((ht t).mpr h1), if_neg (fun h => hf.1.mp h h2), if_neg (fun h => hf.2.mp h h3)]
    · intro hn
      by_cases h1 : t = 0xf9 ∨ t = 0xfa
      · rw [if_pos h1]
        by_cases h2 : f &&& 0x1f ≠ 1
        · rw [if_pos h2]
        · rw [if_neg h2]
          by_cases h3 : (f >>> 5) &&& 3 ∉ dcmDensities
          · rw [if_pos h3]
          · exact absurd ⟨t, f, rest, rfl, (ht t).mp h1, Decidable.not_not.mp (fun h => h2 (hf.1.mpr h)),
              Decidable.not_not.mp (fun h => h3 (hf.2.mpr h))⟩ hn
      · rw [if_neg h1]

/-- a gzip or bzip2 reader that says "not mine" -/
def OsRejects (r : Except ExtErr Bytes) : Prop := r = .error .os ∨ r = .error .eof
/-- an lzma reader that says "not mine" -/
def LzmaRejects (r : Except ExtErr Bytes) : Prop := r = .error .lzma ∨ r = .error .eof

theorem unpack_os_rejects {dec : Bytes → Except ExtErr Bytes} {data : Bytes} (h : OsRejects (dec data)) :
    unpackRaw (osUnpack dec) data = .error (.py .invalidContainer) := by
  unfold unpackRaw osUnpack
  rcases h with h | h <;> rw [h]

theorem unpack_lzma_rejects {dec : Bytes → Except ExtErr Bytes} {data : Bytes} (h : LzmaRejects (dec data)) :
    unpackRaw (lzmaUnpack dec) data = .error (.py .invalidContainer) := by
  unfold unpackRaw lzmaUnpack
  rcases h with h | h <;> rw [h]

/-- **C34, order.** Whatever the decompressors do: gzip first, then bzip2, then lzma, then DCM; the first that accepts
determines the data; DCM is refused; if all decline there is no container. -/
theorem C34_order (d : Decompressors) (data : Bytes) :
    (∀ b, d.gzip data = .ok b → guessContainer (knownContainers d) data = .ok (some b)) ∧
    (OsRejects (d.gzip data) → ∀ b, d.bzip data = .ok b → guessContainer (knownContainers d) data = .ok (some b)) ∧
    (OsRejects (d.gzip data) → OsRejects (d.bzip data) → ∀ b, d.lzma data = .ok b → guessContainer (knownContainers d) data = .ok (some b)) ∧
    (OsRejects (d.gzip data) → OsRejects (d.bzip data) → LzmaRejects (d.lzma data) → IsDcm data →
      guessContainer (knownContainers d) data = .error (.py .unsupportedContainer)) ∧
    (OsRejects (d.gzip data) → OsRejects (d.bzip data) → LzmaRejects (d.lzma data) → ¬ IsDcm data →
      guessContainer (knownContainers d) data = .ok none) := by
  unfold knownContainers
  refine ⟨fun b h => ?_, fun h1 b h => ?_, fun h1 h2 b h => ?_, fun h1 h2 h3 h => ?_, fun h1 h2 h3 h => ?_⟩
  · have : unpackRaw (osUnpack d.gzip) data = .ok b := by unfold unpackRaw osUnpack; rw [h]
    rw [guessContainer, this]
  · have : unpackRaw (osUnpack d.bzip) data = .ok b := by unfold unpackRaw osUnpack; rw [h]
    rw [guessContainer, unpack_os_rejects h1]
    simp only
    rw [guessContainer, this]
  · have : unpackRaw (lzmaUnpack d.lzma) data = .ok b := by unfold unpackRaw lzmaUnpack; rw [h]
    rw [guessContainer, unpack_os_rejects h1]
    simp only
    rw [guessContainer, unpack_os_rejects h2]
    simp only
    rw [guessContainer, this]
  · have : unpackRaw dcmUnpack data = .error (.py .unsupportedContainer) := by unfold unpackRaw; rw [(C34_dcm data).1 h]
    rw [guessContainer, unpack_os_rejects h1]
    simp only
    rw [guessContainer, unpack_os_rejects h2]
    simp only
    rw [guessContainer, unpack_lzma_rejects h3]
    simp only
    rw [guessContainer, this]
  · have : unpackRaw dcmUnpack data = .error (.py .invalidContainer) := by unfold unpackRaw; rw [(C34_dcm data).2 h]
    rw [guessContainer, unpack_os_rejects h1]
    simp only
    rw [guessContainer, unpack_os_rejects h2]
    simp only
    rw [guessContainer, unpack_lzma_rejects h3]
    simp only
    rw [guessContainer, this]
    rfl

/-- **C34, pass-through.** Data that no container accepts reaches the parsers unchanged. -/
theorem C34_passthrough {ρ : Type} (d : Decompressors) (sig : Bytes → Option Mime) (parsers : Mime → List (ParserClass ρ)) (data : Bytes)
    (h1 : OsRejects (d.gzip data)) (h2 : OsRejects (d.bzip data)) (h3 : LzmaRejects (d.lzma data)) (h4 : ¬ IsDcm data) :
    findDiskimage d sig parsers data = liftErr (findParser sig parsers data) ∧
    iterParsers d sig parsers data = liftErr (iterParser sig parsers data) := by
  unfold findDiskimage iterParsers
  rw [(C34_order d data).2.2.2.2 h1 h2 h3 h4]
  exact ⟨rfl, rfl⟩

/-- Any other exception of a decompressor (for instance `zlib.error` on a damaged gzip stream) is not caught: it ends the
detection, although bzip2, lzma and the plain formats have not been tried. -/
theorem C34_other_error (d : Decompressors) (data : Bytes) :
    (d.gzip data = .error .other → guessContainer (knownContainers d) data = .error (.ext .other)) ∧
    (OsRejects (d.gzip data) → d.bzip data = .error .other → guessContainer (knownContainers d) data = .error (.ext .other)) := by
  unfold knownContainers
  constructor
  · intro h
    have : unpackRaw (osUnpack d.gzip) data = .error (.ext .other) := by unfold unpackRaw osUnpack; rw [h]
    rw [guessContainer, this]
  · intro h1 h
    have : unpackRaw (osUnpack d.bzip) data = .error (.ext .other) := by unfold unpackRaw osUnpack; rw [h]
    rw [guessContainer, unpack_os_rejects h1]
    simp only
    rw [guessContainer, this]

example : IsDcm [0xfa, 0x41, 7] ∧ ¬ IsDcm [0xfa, 0x61, 7] := by
  refine ⟨⟨_, _, _, rfl, by decide⟩, ?_⟩
  rintro ⟨t, f, r, h, _, _, h3⟩
  injection h with _ h
  injection h with h _
  subst h
  revert h3
  decide

/-! ### C35 -/

/-- **C35, one parser.** A parser accepts exactly if opening, the check of the mode and listing the segments all succeed. -/
theorem C35_parse_accepts (c : ImageClass) (strict : Bool) (raw : Bytes) (x : c.σ) : c.parse strict raw = .ok x ↔
    ∃ a b, c.new raw = .ok a ∧ (if strict then c.strictCheck a else c.relaxedCheck a) = .ok b ∧ c.parseSegments b = .ok x := by
  constructor
  · intro h
    unfold ImageClass.parse at h
    split at h
    · rename_i im hb
      injection h with h
      subst h
      unfold ImageClass.parseBody at hb
      cases hn : c.new raw with
      | error e => rw [hn] at hb; cases hb
      | ok a =>
        rw [hn] at hb
        simp only at hb
        cases hc : c.checkImage strict a with
        | error e => rw [hc] at hb; cases hb
        | ok b =>
          rw [hc] at hb
          refine ⟨a, b, rfl, ?_, hb⟩
          unfold ImageClass.checkImage at hc
          cases strict with
          | false => exact hc
          | true =>
            rw [if_pos rfl] at hc ⊢
            split at hc
            · rename_i hs; rw [hs]; exact hc
            · split at hc <;> cases hc
    · cases h
    · split at h <;> cases h
  · rintro ⟨a, b, h1, h2, h3⟩
    have hc : c.checkImage strict a = .ok b := by
      unfold ImageClass.checkImage
      cases strict with
      | false => exact h2
      | true => rw [if_pos rfl] at h2 ⊢; rw [h2]
    unfold ImageClass.parse ImageClass.parseBody
    rw [h1]
    simp only
    rw [hc]
    simp only
    rw [h3]

/-- the errors that leave a parser: a rejection, "unsupported", or an exception that is not of the package -/
theorem C35_parse_errors (c : ImageClass) (strict : Bool) (raw : Bytes) (e : Err) (h : c.parse strict raw = .error e) :
    e = .invalidSegmentParser ∨ e = .unsupportedDiskImage ∨ e.isAtr = false := by
  unfold ImageClass.parse at h
  split at h
  · cases h
  · injection h with h; exact Or.inr (Or.inl h.symm)
  · split at h
    · injection h with h; exact Or.inl h.symm
    · rename_i hn
      injection h with h
      exact Or.inr (Or.inr (by rw [← h]; simpa using hn))

/-- an error of the package while opening is a rejection, except "unsupported", which is passed on, as are exceptions that are
not of the package -/
theorem C35_parse_new_error (c : ImageClass) (strict : Bool) (raw : Bytes) (e : Err) (h : c.new raw = .error e) :
    c.parse strict raw = .error (if e = .unsupportedDiskImage then .unsupportedDiskImage else if e.isAtr then .invalidSegmentParser else e) := by
  unfold ImageClass.parse ImageClass.parseBody
  rw [h]
  cases e <;> rfl

/-- In strict mode even "unsupported" raised by the check is turned into a rejection; in relaxed mode it is passed on. -/
theorem C35_unsupported_check (c : ImageClass) (raw : Bytes) (a : c.σ) (h1 : c.new raw = .ok a) :
    (c.strictCheck a = .error .unsupportedDiskImage → c.parse true raw = .error .invalidSegmentParser) ∧
    (c.relaxedCheck a = .error .unsupportedDiskImage → c.parse false raw = .error .unsupportedDiskImage) := by
  constructor <;> intro h <;> unfold ImageClass.parse ImageClass.parseBody ImageClass.checkImage <;> simp [h1, h, Err.isAtr]

/-- **C35, a list of parsers.** The first parser that accepts is chosen. -/
theorem C35_first {ρ : Type} (strict : Bool) (raw : Bytes) (pre suf : List (ParserClass ρ)) (p : ParserClass ρ) (x : ρ)
    (hpre : ∀ q ∈ pre, q raw strict = .error .invalidSegmentParser) (hp : p raw strict = .ok x) :
    tryParsers strict raw (pre ++ p :: suf) = .ok (some x) := by
  induction pre with
  | nil => rw [List.nil_append, tryParsers, hp]
  | cons q pre ih =>
    rw [List.cons_append, tryParsers, hpre q List.mem_cons_self]
    exact ih fun r hr => hpre r (List.mem_cons_of_mem _ hr)

/-- If all reject, none is chosen. -/
theorem C35_none {ρ : Type} (strict : Bool) (raw : Bytes) (ps : List (ParserClass ρ))
    (h : ∀ q ∈ ps, q raw strict = .error .invalidSegmentParser) : tryParsers strict raw ps = .ok none := by
  induction ps with
  | nil => rfl
  | cons q ps ih =>
    rw [tryParsers, h q List.mem_cons_self]
    exact ih fun r hr => h r (List.mem_cons_of_mem _ hr)

/-- Any other error of a parser before the first acceptance ends the search with this error. -/
theorem C35_error {ρ : Type} (strict : Bool) (raw : Bytes) (pre suf : List (ParserClass ρ)) (p : ParserClass ρ) (e : Err)
    (hpre : ∀ q ∈ pre, q raw strict = .error .invalidSegmentParser) (hp : p raw strict = .error e) (he : e ≠ .invalidSegmentParser) :
    tryParsers strict raw (pre ++ p :: suf) = .error e := by
  induction pre with
  | nil =>
    rw [List.nil_append, tryParsers, hp]
    cases e <;> first | rfl | exact absurd rfl he
  | cons q pre ih =>
    rw [List.cons_append, tryParsers, hpre q List.mem_cons_self]
    exact ih fun r hr => hpre r (List.mem_cons_of_mem _ hr)

/-- a parser tried during detection: the type it stands for, the parser, the strict flag it is called with -/
abbrev Candidate (ρ : Type) := Mime × ParserClass ρ × Bool

/-- The parsers in the order of detection: those of the type the signature database gives, relaxed, then those of every type
in the documented order, strict. -/
def candidates {ρ : Type} (sig : Bytes → Option Mime) (parsers : Mime → List (ParserClass ρ)) (raw : Bytes) : List (Candidate ρ) :=
  (sig raw).toList.flatMap (fun m => (parsers m).map fun p => (m, p, false)) ++
  mimeParseOrder.flatMap (fun m => (parsers m).map fun p => (m, p, true))

def Candidate.rejects {ρ : Type} (raw : Bytes) (c : Candidate ρ) : Prop := c.2.1 raw c.2.2 = .error .invalidSegmentParser

/-- For every list of candidates exactly one of three things is the case, so the following three theorems cover everything. -/
theorem C35_cases {ρ : Type} (raw : Bytes) (cs : List (Candidate ρ)) :
    (∃ pre c suf x, cs = pre ++ c :: suf ∧ (∀ q ∈ pre, q.rejects raw) ∧ c.2.1 raw c.2.2 = .ok x) ∨
    (∀ q ∈ cs, q.rejects raw) ∨
    (∃ pre c suf e, cs = pre ++ c :: suf ∧ (∀ q ∈ pre, q.rejects raw) ∧ c.2.1 raw c.2.2 = .error e ∧ e ≠ .invalidSegmentParser) := by
  induction cs with
  | nil => exact Or.inr (Or.inl fun q hq => (nomatch hq))
  | cons c cs ih =>
    cases hc : c.2.1 raw c.2.2 with
    | ok x => exact Or.inl ⟨[], c, cs, x, rfl, fun q hq => (nomatch hq), hc⟩
    | error e =>
      by_cases he : e = .invalidSegmentParser
      · subst he
        have hcr : c.rejects raw := hc
        rcases ih with ⟨pre, d, suf, x, h1, h2, h3⟩ | h | ⟨pre, d, suf, x, h1, h2, h3⟩
        · exact Or.inl ⟨c :: pre, d, suf, x, by rw [h1]; rfl, fun q hq => (List.mem_cons.mp hq).elim (· ▸ hcr) (h2 q), h3⟩
        · exact Or.inr (Or.inl fun q hq => (List.mem_cons.mp hq).elim (· ▸ hcr) (h q))
        · exact Or.inr (Or.inr ⟨c :: pre, d, suf, x, by rw [h1]; rfl, fun q hq => (List.mem_cons.mp hq).elim (· ▸ hcr) (h2 q), h3⟩)
      · exact Or.inr (Or.inr ⟨[], c, cs, e, rfl, fun q hq => (nomatch hq), hc, he⟩)

theorem split_append {α : Type} {a b pre suf : List α} {c : α} (h : a ++ b = pre ++ c :: suf) :
    (∃ suf', a = pre ++ c :: suf') ∨ (∃ pre', pre = a ++ pre' ∧ b = pre' ++ c :: suf) := by
  rcases List.append_eq_append_iff.mp h with ⟨a', h1, h2⟩ | ⟨c', h1, h2⟩
  · exact Or.inr ⟨a', h1, h2⟩
  · cases c' with
    | nil => exact Or.inr ⟨[], by rw [h1]; simp, by rw [h2]; rfl⟩
    | cons d c' =>
      injection h2 with h2 h3
      subst h2
      exact Or.inl ⟨c', h1⟩

theorem map_split {ρ : Type} {m : Mime} {s : Bool} {ps : List (ParserClass ρ)} {pre suf : List (Candidate ρ)} {c : Candidate ρ}
    (h : (ps.map fun p => (m, p, s)) = pre ++ c :: suf) :
    c.1 = m ∧ c.2.2 = s ∧ ∃ pre' suf', ps = pre' ++ c.2.1 :: suf' ∧ pre = pre'.map fun p => (m, p, s) := by
  obtain ⟨pre', r, h1, h2, h3⟩ := List.map_eq_append_iff.mp h
  obtain ⟨d, suf', h4, h5, h6⟩ := List.map_eq_cons_iff.mp h3
  subst h5
  exact ⟨rfl, rfl, pre', suf', by rw [h1, h4], h2.symm⟩

theorem tryParsers_split {ρ : Type} {raw : Bytes} {m : Mime} {s : Bool} {ps : List (ParserClass ρ)} {pre suf : List (Candidate ρ)} {c : Candidate ρ}
    (h : (ps.map fun p => (m, p, s)) = pre ++ c :: suf) (hpre : ∀ q ∈ pre, q.rejects raw) :
    (∀ x, c.2.1 raw c.2.2 = .ok x → tryParsers s raw ps = .ok (some x)) ∧
    (∀ e, c.2.1 raw c.2.2 = .error e → e ≠ .invalidSegmentParser → tryParsers s raw ps = .error e) := by
  obtain ⟨_, h2, pre', suf', h3, h4⟩ := map_split h
  have hp : ∀ q ∈ pre', q raw s = .error .invalidSegmentParser := by
    intro q hq
    have := hpre (m, q, s) (by rw [h4]; exact List.mem_map.mpr ⟨q, hq, rfl⟩)
    exact this
  rw [h3, h2]
  exact ⟨fun x hx => C35_first s raw pre' suf' _ x hp hx, fun e hx hne => C35_error s raw pre' suf' _ e hp hx hne⟩

theorem tryParsers_all_reject {ρ : Type} {raw : Bytes} {m : Mime} {s : Bool} {ps : List (ParserClass ρ)}
    (h : ∀ q : Candidate ρ, q ∈ (ps.map fun p => ((m, p, s) : Candidate ρ)) → q.rejects raw) : tryParsers s raw ps = .ok none :=
  C35_none s raw ps fun q hq => h (m, q, s) (List.mem_map.mpr ⟨q, hq, rfl⟩)

/-- the strict candidates of a list of types -/
def strictCands {ρ : Type} (parsers : Mime → List (ParserClass ρ)) (ms : List Mime) : List (Candidate ρ) :=
  ms.flatMap fun m => (parsers m).map fun p => (m, p, true)

theorem strictCands_strict {ρ : Type} {parsers : Mime → List (ParserClass ρ)} {ms : List Mime} {pre suf : List (Candidate ρ)} {c : Candidate ρ}
    (h : strictCands parsers ms = pre ++ c :: suf) : c.2.2 = true := by
  have hm : c ∈ strictCands parsers ms := by rw [h]; simp
  obtain ⟨m, _, hm⟩ := List.mem_flatMap.mp hm
  obtain ⟨p, _, hp⟩ := List.mem_map.mp hm
  rw [← hp]

/-- the loop over the types, on its part of the candidates -/
theorem findByMime_spec {ρ : Type} (parsers : Mime → List (ParserClass ρ)) (raw : Bytes) (ms : List Mime) :
    (∀ pre c suf, strictCands parsers ms = pre ++ c :: suf → (∀ q ∈ pre, q.rejects raw) →
      (∀ x, c.2.1 raw c.2.2 = .ok x → findByMime parsers raw ms = (guessDetail c.1 raw).map fun m => (x, m)) ∧
      (∀ e, c.2.1 raw c.2.2 = .error e → e ≠ .invalidSegmentParser → findByMime parsers raw ms = .error e)) ∧
    ((∀ q ∈ strictCands parsers ms, q.rejects raw) → findByMime parsers raw ms = .error .unsupportedDiskImage) := by
  induction ms with
  | nil =>
    refine ⟨fun pre c suf h => ?_, fun _ => rfl⟩
    exact absurd (show [] = pre ++ c :: suf from h).symm (by simp)
  | cons m ms ih =>
    have hcons : strictCands parsers (m :: ms) = ((parsers m).map fun p => (m, p, true)) ++ strictCands parsers ms := List.flatMap_cons
    rw [hcons]
    refine ⟨fun pre c suf h hpre => ?_, fun h => ?_⟩
    · rcases split_append h with ⟨suf', h1⟩ | ⟨pre', h1, h2⟩
      · have := tryParsers_split h1 hpre
        obtain ⟨hm, _⟩ := map_split h1
        refine ⟨fun x hx => ?_, fun e hx hne => ?_⟩
        · rw [findByMime, this.1 x hx, hm]
          simp only
          cases guessDetail m raw <;> rfl
        · rw [findByMime, this.2 e hx hne]
      · have hn : tryParsers true raw (parsers m) = .ok none := tryParsers_all_reject (m := m) fun q hq => hpre q (by
          rw [h1]; exact List.mem_append_left _ hq)
        rw [findByMime, hn]
        exact ih.1 pre' c suf h2 fun q hq => hpre q (by rw [h1]; exact List.mem_append_right _ hq)
    · have hn : tryParsers true raw (parsers m) = .ok none := tryParsers_all_reject (m := m) fun q hq => h q (List.mem_append_left _ hq)
      rw [findByMime, hn]
      exact ih.2 fun q hq => h q (List.mem_append_right _ hq)

/-- `guess_parser_for_system` searches the types that start with the given one in the same way, but gives `None` instead of an
error if all reject. -/
theorem C35_system {ρ : Type} (starts : Mime → Bool) (parsers : Mime → List (ParserClass ρ)) (raw : Bytes) (ms : List Mime) :
    (∀ pre c suf, strictCands parsers (ms.filter starts) = pre ++ c :: suf → (∀ q ∈ pre, q.rejects raw) →
      (∀ x, c.2.1 raw c.2.2 = .ok x → guessParserForSystem starts parsers raw ms = (guessDetail c.1 raw).map fun m => some (m, x)) ∧
      (∀ e, c.2.1 raw c.2.2 = .error e → e ≠ .invalidSegmentParser → guessParserForSystem starts parsers raw ms = .error e)) ∧
    ((∀ q ∈ strictCands parsers (ms.filter starts), q.rejects raw) → guessParserForSystem starts parsers raw ms = .ok none) := by
  induction ms with
  | nil =>
    refine ⟨fun pre c suf h => ?_, fun _ => rfl⟩
    exact absurd (show [] = pre ++ c :: suf from h).symm (by simp)
  | cons m ms ih =>
    rw [guessParserForSystem]
    by_cases hst : starts m = true
    · rw [List.filter_cons_of_pos hst, if_pos hst]
      have hcons : strictCands parsers (m :: ms.filter starts) = ((parsers m).map fun p => (m, p, true)) ++ strictCands parsers (ms.filter starts) :=
        List.flatMap_cons
      rw [hcons]
      refine ⟨fun pre c suf h hpre => ?_, fun h => ?_⟩
      · rcases split_append h with ⟨suf', h1⟩ | ⟨pre', h1, h2⟩
        · have := tryParsers_split h1 hpre
          obtain ⟨hm, _⟩ := map_split h1
          refine ⟨fun x hx => ?_, fun e hx hne => ?_⟩
          · rw [this.1 x hx, hm]
            simp only
            cases guessDetail m raw <;> rfl
          · rw [this.2 e hx hne]
        · have hn : tryParsers true raw (parsers m) = .ok none := tryParsers_all_reject (m := m) fun q hq => hpre q (by
            rw [h1]; exact List.mem_append_left _ hq)
          rw [hn]
          exact ih.1 pre' c suf h2 fun q hq => hpre q (by rw [h1]; exact List.mem_append_right _ hq)
      · have hn : tryParsers true raw (parsers m) = .ok none := tryParsers_all_reject (m := m) fun q hq => h q (List.mem_append_left _ hq)
        rw [hn]
        exact ih.2 fun q hq => h q (List.mem_append_right _ hq)
    · rw [List.filter_cons_of_neg hst, if_neg hst]
      exact ih

/-- the type reported for an accepting candidate: the database's type as it is, else the general type made precise -/
def Candidate.mime {ρ : Type} (raw : Bytes) (c : Candidate ρ) : Except Err Mime := if c.2.2 then guessDetail c.1 raw else .ok c.1

/-- the first stage, on its part of the candidates -/
theorem bySize_spec {ρ : Type} (sig : Bytes → Option Mime) (parsers : Mime → List (ParserClass ρ)) (raw : Bytes)
    (pre suf : List (Candidate ρ)) (c : Candidate ρ) (h : candidates sig parsers raw = pre ++ c :: suf) (hpre : ∀ q ∈ pre, q.rejects raw) :
    (c.2.2 = false ∧ (∀ x, c.2.1 raw c.2.2 = .ok x → guessParserBySize sig parsers raw = .ok (some c.1, some x)) ∧
      (∀ e, c.2.1 raw c.2.2 = .error e → e ≠ .invalidSegmentParser → guessParserBySize sig parsers raw = .error e)) ∨
    (c.2.2 = true ∧ ∃ m, guessParserBySize sig parsers raw = .ok (m, none) ∧ ∃ pre', strictCands parsers mimeParseOrder = pre' ++ c :: suf ∧
      ∀ q ∈ pre', q.rejects raw) := by
  unfold candidates at h
  cases hs : sig raw with
  | none =>
    rw [hs] at h
    right
    refine ⟨strictCands_strict h, none, by unfold guessParserBySize; rw [hs], pre, h, hpre⟩
  | some m =>
    rw [hs] at h
    simp only [Option.toList, List.flatMap_cons, List.flatMap_nil, List.append_nil] at h
    rcases split_append h with ⟨suf', h1⟩ | ⟨pre', h1, h2⟩
    · left
      have ht := tryParsers_split h1 hpre
      obtain ⟨hm, hs2, _⟩ := map_split h1
      refine ⟨hs2, fun x hx => ?_, fun e hx hne => ?_⟩
      · unfold guessParserBySize; rw [hs]; simp only; rw [ht.1 x hx, hm]
      · unfold guessParserBySize; rw [hs]; simp only; rw [ht.2 e hx hne]
    · right
      have hn : tryParsers false raw (parsers m) = .ok none := tryParsers_all_reject (m := m) fun q hq => hpre q (by
        rw [h1]; exact List.mem_append_left _ hq)
      refine ⟨strictCands_strict h2, some m, ?_, pre', h2, fun q hq => hpre q (by rw [h1]; exact List.mem_append_right _ hq)⟩
      unfold guessParserBySize; rw [hs]; simp only; rw [hn]

theorem bySize_none {ρ : Type} (sig : Bytes → Option Mime) (parsers : Mime → List (ParserClass ρ)) (raw : Bytes)
    (h : ∀ q ∈ candidates sig parsers raw, q.rejects raw) : ∃ m, guessParserBySize sig parsers raw = .ok (m, none) := by
  unfold guessParserBySize
  cases hs : sig raw with
  | none => exact ⟨none, rfl⟩
  | some m =>
    have hn : tryParsers false raw (parsers m) = .ok none := tryParsers_all_reject (m := m) fun q hq => h q (by
      unfold candidates
      rw [hs]
      apply List.mem_append_left
      simpa using hq)
    exact ⟨some m, by simp only; rw [hn]⟩

/-- the candidates, in the data freed from its container, of which `c` is the first that does not reject -/
def FirstLive {ρ : Type} (sig : Bytes → Option Mime) (parsers : Mime → List (ParserClass ρ)) (raw : Bytes) (c : Candidate ρ) : Prop :=
  ∃ pre suf, candidates sig parsers raw = pre ++ c :: suf ∧ ∀ q ∈ pre, q.rejects raw

/-- **C35, detection.** The parser found, by either search function, is the first candidate that accepts. -/
theorem C35_find_first {ρ : Type} (sig : Bytes → Option Mime) (parsers : Mime → List (ParserClass ρ)) (raw : Bytes) (c : Candidate ρ) (x : ρ)
    (h : FirstLive sig parsers raw c) (hc : c.2.1 raw c.2.2 = .ok x) :
    findParser sig parsers raw = (c.mime raw).map (fun m => (x, m)) ∧
    iterParser sig parsers raw = (c.mime raw).map (fun m => some (m, x)) := by
  obtain ⟨pre, suf, h1, hpre⟩ := h
  unfold findParser iterParser Candidate.mime
  rcases bySize_spec sig parsers raw pre suf c h1 hpre with ⟨k1, k2, _⟩ | ⟨k1, m, k2, pre', k3, k4⟩
  · rw [k2 x hc, k1]
    exact ⟨rfl, rfl⟩
  · rw [k2, k1]
    have e1 := ((findByMime_spec parsers raw mimeParseOrder).1 pre' c suf k3 k4).1 x hc
    have e2 := ((C35_system (fun _ => true) parsers raw mimeParseOrder).1 pre' c suf (by rw [List.filter_eq_self.mpr (fun _ _ => rfl)]; exact k3) k4).1 x hc
    cases m <;> exact ⟨e1, e2⟩

/-- **C35, detection.** If every candidate rejects, there is no parser: one function reports "Unknown disk image type", the
other returns `None`. -/
theorem C35_find_none {ρ : Type} (sig : Bytes → Option Mime) (parsers : Mime → List (ParserClass ρ)) (raw : Bytes)
    (h : ∀ q ∈ candidates sig parsers raw, q.rejects raw) :
    findParser sig parsers raw = .error .unsupportedDiskImage ∧ iterParser sig parsers raw = .ok none := by
  obtain ⟨m, hm⟩ := bySize_none sig parsers raw h
  have hs : ∀ q ∈ strictCands parsers mimeParseOrder, q.rejects raw := fun q hq => h q (List.mem_append_right _ hq)
  have e1 := (findByMime_spec parsers raw mimeParseOrder).2 hs
  have e2 := (C35_system (fun _ => true) parsers raw mimeParseOrder).2 (by rw [List.filter_eq_self.mpr (fun _ _ => rfl)]; exact hs)
  unfold findParser iterParser
  rw [hm]
  cases m <;> exact ⟨e1, e2⟩

/-- **C35, detection.** An error that is not a rejection ends the search, even if a later candidate would accept. -/
theorem C35_find_error {ρ : Type} (sig : Bytes → Option Mime) (parsers : Mime → List (ParserClass ρ)) (raw : Bytes) (c : Candidate ρ) (e : Err)
    (h : FirstLive sig parsers raw c) (hc : c.2.1 raw c.2.2 = .error e) (he : e ≠ .invalidSegmentParser) :
    findParser sig parsers raw = .error e ∧ iterParser sig parsers raw = .error e := by
  obtain ⟨pre, suf, h1, hpre⟩ := h
  unfold findParser iterParser
  rcases bySize_spec sig parsers raw pre suf c h1 hpre with ⟨k1, _, k2⟩ | ⟨k1, m, k2, pre', k3, k4⟩
  · rw [k2 e hc he]
    exact ⟨rfl, rfl⟩
  · rw [k2]
    have e1 := ((findByMime_spec parsers raw mimeParseOrder).1 pre' c suf k3 k4).2 e hc he
    have e2 := ((C35_system (fun _ => true) parsers raw mimeParseOrder).1 pre' c suf (by rw [List.filter_eq_self.mpr (fun _ _ => rfl)]; exact k3) k4).2 e hc he
    cases m <;> exact ⟨e1, e2⟩

/-- three parsers: one that rejects, one that accepts, one that fails -/
example : findParser (fun _ => none) (fun m => if m = .xex then [fun _ _ => .error .invalidSegmentParser, fun _ _ => .ok 7] else if m = .rom then [fun _ _ => .error .typeError] else [])
    [1, 2, 3] = .ok (7, .xex) := by decide

/-! ### C55: signatures -/

/-- the bytes a signature asks for -/
def SigItem.Holds (raw : Bytes) : SigItem → Prop
  | .range i j e => slice raw i j = e
  | .byte i e => raw[i]? = some e

theorem sig_check (raw : Bytes) (s : SigItem) : (s.check raw = .ok true ↔ s.Holds raw) := by
  cases s with
  | range i j e => simp [SigItem.check, SigItem.Holds]
  | byte i e =>
    simp only [SigItem.check, SigItem.Holds]
    split
    · rename_i h; simp [h]
    · rename_i b h; simp [h]

theorem checkSignature_true (raw : Bytes) (l : List SigItem) : checkSignature raw l = .ok true ↔ ∀ s ∈ l, s.Holds raw := by
  induction l with
  | nil => simp [checkSignature]
  | cons s l ih =>
    rw [checkSignature]
    cases hs : s.check raw with
    | error e =>
      simp only
      refine ⟨fun h => (nomatch h), fun h => ?_⟩
      rw [(sig_check raw s).mpr (h s List.mem_cons_self)] at hs
      cases hs
    | ok b => cases b with
      | false =>
        simp only
        refine ⟨fun h => (by cases h), fun h => ?_⟩
        rw [(sig_check raw s).mpr (h s List.mem_cons_self)] at hs
        cases hs
      | true =>
        simp only
        rw [ih, List.forall_mem_cons]
        exact ⟨fun h => ⟨(sig_check raw s).mp hs, h⟩, fun h => h.2⟩

/-- **C55.** The detailed type is given exactly if its signature holds and no signature of an earlier line of the same
general type does; the general type is never changed into one of another family.  Missing for the full claim: images too
short for a signature position raise `IndexError` instead of giving the general type (`C55_short_image`), so the statement
is about calls that return. -/
theorem C55_partial (mime m : Mime) (raw : Bytes) (h : guessDetail mime raw = .ok m) :
    (m = mime ∧ ∀ e ∈ magicTable, e.2.1 = mime → ¬ ∀ s ∈ e.2.2, s.Holds raw) ∨
    (∃ pre e suf, magicTable = pre ++ e :: suf ∧ e.1 = m ∧ e.2.1 = mime ∧ (∀ s ∈ e.2.2, s.Holds raw) ∧
      ∀ q ∈ pre, q.2.1 = mime → ¬ ∀ s ∈ q.2.2, s.Holds raw) := by
  unfold guessDetail at h
  generalize magicTable = l at h ⊢
  induction l with
  | nil =>
    injection h with h
    exact Or.inl ⟨h.symm, fun e he => (nomatch he)⟩
  | cons e l ih =>
    obtain ⟨detail, base, sig⟩ := e
    rw [guessDetailGo] at h
    have step : guessDetailGo mime raw l = .ok m → (base = mime → ¬ ∀ s ∈ sig, s.Holds raw) →
        (m = mime ∧ ∀ e ∈ (detail, base, sig) :: l, e.2.1 = mime → ¬ ∀ s ∈ e.2.2, s.Holds raw) ∨
        (∃ pre e suf, (detail, base, sig) :: l = pre ++ e :: suf ∧ e.1 = m ∧ e.2.1 = mime ∧ (∀ s ∈ e.2.2, s.Holds raw) ∧
          ∀ q ∈ pre, q.2.1 = mime → ¬ ∀ s ∈ q.2.2, s.Holds raw) := by
      intro hl hn
      rcases ih hl with ⟨h1, h2⟩ | ⟨pre, e, suf, h1, h2, h3, h4, h5⟩
      · exact Or.inl ⟨h1, fun e he => (List.mem_cons.mp he).elim (fun h => by subst h; exact hn) (h2 e)⟩
      · exact Or.inr ⟨(detail, base, sig) :: pre, e, suf, by rw [h1]; rfl, h2, h3, h4, fun q hq =>
          (List.mem_cons.mp hq).elim (fun h => by subst h; exact hn) (h5 q)⟩
    split at h
    · rename_i hb
      split at h
      · cases h
      · rename_i hc
        injection h with h
        exact Or.inr ⟨[], _, l, rfl, h, hb, (checkSignature_true raw sig).mp hc, fun q hq => (nomatch hq)⟩
      · rename_i hc
        apply step h
        intro _ hh
        rw [(checkSignature_true raw sig).mpr hh] at hc
        cases hc
    · rename_i hb
      exact step h fun hbb => absurd hbb hb

/-- An Atari disk image of fewer than 2141 bytes that starts like "Jumpman" stops the detection with an `IndexError` (unless
it matches an earlier signature): a single position is looked up without checking the size. -/
theorem C55_short_image : guessDetail .atr [0x96, 0x02, 0x80, 0x16, 0x80] = .error .indexError ∧
    guessDetail .atr [0x96, 0x02, 0xd0, 0x05, 0x80, 0] = .error .indexError ∧ guessDetail .xex [0x96, 0x02, 0x80, 0x16, 0x80] = .ok .xex := by
  decide +kernel

example : guessDetail .xex [0xff, 0xff, 0x80, 0x2a, 0xff, 0x8a, 1, 2] = .ok .getawayXex := by decide +kernel

end Atr
