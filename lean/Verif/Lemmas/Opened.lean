import Verif.Spec.Images
import Verif.Lemmas.Detect
/-! # Whatever is detected was opened by its format -/
namespace Atr

theorem tryParsers_mem {ρ : Type} {strict : Bool} {raw : Bytes} {x : ρ} : ∀ {ps : List (ParserClass ρ)}, tryParsers strict raw ps = .ok (some x) →
    ∃ p ∈ ps, p raw strict = .ok x := by
  intro ps
  induction ps with
  | nil => intro h; cases h
  | cons p ps ih =>
    intro h
    unfold tryParsers at h
    split at h
    · rename_i y hy; cases h; exact ⟨p, by simp, hy⟩
    · obtain ⟨q, hq, e⟩ := ih h
      exact ⟨q, by simp [hq], e⟩
    · cases h

theorem findByMime_mem {ρ : Type} {parsers : Mime → List (ParserClass ρ)} {raw : Bytes} {x : ρ} {mime : Mime} : ∀ {ms : List Mime},
    findByMime parsers raw ms = .ok (x, mime) → ∃ m, ∃ p ∈ parsers m, p raw true = .ok x := by
  intro ms
  induction ms with
  | nil => intro h; cases h
  | cons m ms ih =>
    intro h
    unfold findByMime at h
    split at h
    · cases h
    · exact ih h
    · rename_i y hy
      split at h
      · cases h
      · cases h
        exact ⟨m, tryParsers_mem hy⟩

theorem findParser_mem {ρ : Type} {sig : Bytes → Option Mime} {parsers : Mime → List (ParserClass ρ)} {raw : Bytes} {x : ρ} {mime : Mime}
    (h : findParser sig parsers raw = .ok (x, mime)) : ∃ m, ∃ p ∈ parsers m, ∃ strict, p raw strict = .ok x := by
  unfold findParser at h
  split at h
  · cases h
  · rename_i mm p hs
    cases h
    unfold guessParserBySize at hs
    split at hs
    · cases hs
    · split at hs
      · cases hs
      · rename_i ht
        cases hs
        obtain ⟨q, hq, e⟩ := tryParsers_mem ht
        exact ⟨_, q, hq, false, e⟩
  · obtain ⟨m, p, hp, e⟩ := findByMime_mem h
    exact ⟨m, p, hp, true, e⟩

theorem parser_ok {c : ImageClass} {wrap : c.σ → Image} {raw : Bytes} {strict : Bool} {x : Image} (h : c.parser wrap raw strict = .ok x) :
    ∃ im im' im'', c.new raw = .ok im ∧ ((strict = true ∧ c.strictCheck im = .ok im') ∨ (strict = false ∧ c.relaxedCheck im = .ok im')) ∧
      c.parseSegments im' = .ok im'' ∧ x = wrap im'' := by
  unfold ImageClass.parser at h
  rw [parse_eq] at h
  cases hb : c.parseBody strict raw with
  | error e => rw [hb] at h; cases h
  | ok im'' =>
    rw [hb] at h
    cases h
    unfold ImageClass.parseBody at hb
    split at hb
    · cases hb
    rename_i im hn
    split at hb
    · cases hb
    rename_i im' hc
    refine ⟨im, im', im'', hn, ?_, hb, rfl⟩
    unfold ImageClass.checkImage at hc
    split at hc
    · rename_i hs
      left
      refine ⟨hs, ?_⟩
      split at hc
      · rename_i y hy; cases hc; exact hy
      · split at hc <;> cases hc
    · rename_i hs
      right
      exact ⟨by simpa using hs, hc⟩

theorem map_ok {α β : Type} {x : Except Err α} {f : α → β} {y : β} (h : x.map f = .ok y) : ∃ a, x = .ok a ∧ y = f a := by
  cases x with
  | error e => cases h
  | ok a => cases h; exact ⟨a, rfl, rfl⟩

theorem diskClass_opened {τ : Type} {new : Bytes → Except Err τ} {hdr : τ → AHeader} {size : τ → Nat} {segs : τ → Except Err (List ISeg)}
    {wrap : τ × List ISeg → Image} {b : Bytes} {strict : Bool} {x : Image} (h : (diskClass new hdr size segs).parser wrap b strict = .ok x) :
    ∃ m s, new b = .ok m ∧ segs m = .ok s ∧ x = wrap (m, s) := by
  obtain ⟨im, im', im'', h1, h2, h3, h4⟩ := parser_ok h
  obtain ⟨m, h1', rfl⟩ := map_ok h1
  have h2 : im' = (m, []) := by
    rcases h2 with ⟨-, h2⟩ | ⟨-, h2⟩
    · obtain ⟨_, _, e⟩ := map_ok h2; exact e
    · cases h2; rfl
  subst h2
  obtain ⟨s, h3', rfl⟩ := map_ok h3
  exact ⟨m, s, h1', h3', h4⟩

theorem imageParsers_opened {L : Libs} {m : Mime} {p : ParserClass Image} (hp : p ∈ imageParsers L.zip m) {raw : Bytes} {strict : Bool} {x : Image}
    (h : p raw strict = .ok x) : Opened L raw x := by
  have hrom : ∀ {p : ParserClass Image}, p ∈ [romParser] → p raw strict = .ok x → Opened L raw x := by
    intro p hp h
    rw [List.mem_singleton] at hp
    subst hp
    obtain ⟨im, im', im'', h1, h2, h3, rfl⟩ := parser_ok h
    obtain ⟨_, h1', rfl⟩ := map_ok h1
    cases h3
    rcases h2 with ⟨-, h2⟩ | ⟨-, h2⟩
    · obtain ⟨_, _, rfl⟩ := map_ok h2
      exact ⟨rfl, h1'⟩
    · cases h2
      exact ⟨rfl, h1'⟩
  have hcart : ∀ {five t} {p : ParserClass Image}, p = cartParser five t → p raw strict = .ok x → Opened L raw x := by
    intro five t p hp h
    subst hp
    obtain ⟨im, im', im'', h1, h2, h3, rfl⟩ := parser_ok h
    obtain ⟨c, h1', rfl⟩ := map_ok h1
    exact ⟨c, h1'⟩
  cases m <;> simp only [imageParsers] at hp
  case atr =>
    simp only [atrParsers, List.mem_cons, List.not_mem_nil, or_false] at hp
    rcases hp with rfl | rfl | rfl | rfl | rfl
    · obtain ⟨m, s, h1, h2, rfl⟩ := diskClass_opened h; exact h1
    · obtain ⟨m, s, h1, h2, rfl⟩ := diskClass_opened h; exact ⟨h1, h2⟩
    · obtain ⟨m, s, h1, h2, rfl⟩ := diskClass_opened h; exact ⟨h1, h2⟩
    · obtain ⟨m, s, h1, h2, rfl⟩ := diskClass_opened h; exact ⟨h1, h2⟩
    · obtain ⟨m, s, h1, h2, rfl⟩ := diskClass_opened h; exact h1
  case xex =>
    rw [List.mem_singleton] at hp
    subst hp
    obtain ⟨im, im', im'', h1, h2, h3, rfl⟩ := parser_ok h
    cases h1
    have : im' = (raw, []) := by rcases h2 with ⟨-, h2⟩ | ⟨-, h2⟩ <;> cases h2 <;> rfl
    subst this
    obtain ⟨s, h3', rfl⟩ := map_ok h3
    exact h3'
  case cart8 => obtain ⟨t, -, e⟩ := List.mem_map.mp hp; exact hcart e.symm h
  case cart5200 => obtain ⟨t, -, e⟩ := List.mem_map.mp hp; exact hcart e.symm h
  case cart2600 => exact hrom hp h
  case starpath => exact hrom hp h
  case vectrex => exact hrom hp h
  case rom => exact hrom hp h
  case mame =>
    rw [List.mem_singleton] at hp
    subst hp
    obtain ⟨im, im', im'', h1, h2, h3, rfl⟩ := parser_ok h
    have : im' = im := by rcases h2 with ⟨-, h2⟩ | ⟨-, h2⟩ <;> cases h2 <;> rfl
    subst this
    cases h3
    simp only at h1
    split at h1
    · cases h1
    · cases h1
    · rename_i items hz
      exact ⟨items, hz, h1⟩
  case appleDsk =>
    simp only [List.mem_cons, List.not_mem_nil, or_false] at hp
    rcases hp with rfl | rfl
    · obtain ⟨im, im', im'', h1, h2, h3, rfl⟩ := parser_ok h
      obtain ⟨m, h1', rfl⟩ := map_ok h1
      have : im' = (m, []) := by rcases h2 with ⟨-, h2⟩ | ⟨-, h2⟩ <;> cases h2 <;> rfl
      subst this
      obtain ⟨s, h3', rfl⟩ := map_ok h3
      exact ⟨h1', h3'⟩
    · obtain ⟨im, -⟩ := parser_ok h
      exact nomatch im
  case appleBin =>
    rw [List.mem_singleton] at hp
    subst hp
    obtain ⟨im, im', im'', h1, h2, h3, rfl⟩ := parser_ok h
    cases h1
    have : im' = (raw, ⟨0, []⟩) := by rcases h2 with ⟨-, h2⟩ | ⟨-, h2⟩ <;> cases h2 <;> rfl
    subst this
    obtain ⟨s, h3', rfl⟩ := map_ok h3
    exact h3'
  all_goals cases hp

/-- what a file is taken for was opened by its format, after the file has been unpacked if it is a container -/
theorem detect_opened {L : Libs} {f : Bytes} {i : Image} {mime : Mime} (h : detect L f = .ok (i, mime)) :
    ∃ c, guessContainer (knownContainers L.dec) f = .ok c ∧ Opened L (c.getD f) i := by
  unfold detect findDiskimage at h
  split at h
  · cases h
  rename_i c hc
  refine ⟨c, hc, ?_⟩
  cases hf : findParser L.sig (imageParsers L.zip) (c.getD f) with
  | error e => rw [hf] at h; cases h
  | ok r =>
    rw [hf] at h
    cases h
    obtain ⟨m, p, hp, strict, e⟩ := findParser_mem hf
    exact imageParsers_opened hp e

end Atr
