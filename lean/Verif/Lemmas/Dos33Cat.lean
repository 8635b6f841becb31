import Verif.Lemmas.Dos33IO
/-! # DOS 3.3: catalog -/
namespace Atr

/-- The sectors `cs` are linked in this order starting at `s`: each link (bytes 1 and 2 of the sector) names the next
one, the last link is zero. -/
inductive Chain33 (b : Bytes) : Nat → List Nat → Prop
  | nil : Chain33 b 0 []
  | cons {s : Nat} {cs : List Nat} (h0 : s ≠ 0) (h1 : s < 560) (h2 : Chain33 b (linkOf (sec33 b s)) cs) : Chain33 b s (s :: cs)

theorem Chain33.lt {b s cs} (h : Chain33 b s cs) : ∀ x ∈ cs, x ≠ 0 ∧ x < 560 := by
  induction h with
  | nil => intro x hx; cases hx
  | cons h0 h1 _ ih =>
    intro x hx
    rcases List.mem_cons.mp hx with rfl | hx
    · exact ⟨h0, h1⟩
    · exact ih x hx

theorem Chain33.unique {b s cs} (h : Chain33 b s cs) : ∀ {cs'}, Chain33 b s cs' → cs = cs' := by
  induction h with
  | nil => intro cs' h'; cases h' with
    | nil => rfl
    | cons h0 _ _ => exact absurd rfl h0
  | cons h0 h1 _ ih => intro cs' h'; cases h' with
    | nil => exact absurd rfl h0
    | cons _ _ h2 => rw [ih h2]

theorem Chain33.suffix {b s cs} (h : Chain33 b s cs) : ∀ l x r, cs = l ++ x :: r → Chain33 b x (x :: r) := by
  induction h with
  | nil => intro l x r h; simp at h
  | cons h0 h1 h2 ih =>
    intro l x r hl
    cases l with
    | nil =>
      simp at hl
      obtain ⟨rfl, rfl⟩ := hl
      exact .cons h0 h1 h2
    | cons y l =>
      simp at hl
      exact ih l x r hl.2

/-- a finite chain has no repetition -/
theorem Chain33.nodup {b s cs} (h : Chain33 b s cs) : cs.Nodup := by
  induction h with
  | nil => exact List.nodup_nil
  | @cons s cs h0 h1 h2 ih =>
    refine List.nodup_cons.mpr ⟨fun hm => ?_, ih⟩
    obtain ⟨l, r, hlr⟩ := List.append_of_mem hm
    have hs := h2.suffix l s r hlr
    have := (Chain33.cons h0 h1 h2).unique hs
    rw [hlr] at this
    have := congrArg List.length this
    simp at this
    omega

theorem Chain33.length_le {b s cs} (h : Chain33 b s cs) : cs.length ≤ 560 :=
  nodup_length_le 560 cs h.nodup (fun x hx => (h.lt x hx).2)

theorem Chain33.frame {b b' s cs} (h : Chain33 b s cs) (hf : ∀ x ∈ cs, linkOf (sec33 b' x) = linkOf (sec33 b x)) : Chain33 b' s cs := by
  induction h with
  | nil => exact .nil
  | cons h0 h1 _ ih =>
    refine .cons h0 h1 ?_
    rw [hf _ (by simp)]
    exact ih (fun x hx => hf x (by simp [hx]))

/-- all entries of the catalog sectors, used or not, in order -/
def catRaw (b : Bytes) (cs : List Nat) : List Bytes := cs.flatMap fun c => catEntries (sec33 b c)

/-- slot that has never been used (or holds an unlocked text file): type byte 0, not marked deleted -/
def UnusedSlot (e : Bytes) : Prop := e.getD 0 0 ≠ 0xff ∧ e.getD 2 0 = 0

theorem catEntries_len {d : Bytes} (hd : d.length = 256) : (catEntries d).length = 7 ∧ ∀ e ∈ catEntries d, e.length = 35 := by
  unfold catEntries
  refine ⟨by rw [length_chunks _ (by omega)]; simp [hd], ?_⟩
  exact mem_chunks_length_eq 35 (by omega) _ ⟨7, by simp [hd]⟩

theorem scanCat_unused : ∀ (es : List Bytes) (n : Nat), (∀ e ∈ es, UnusedSlot e) → scanCatSec 560 n es = [] := by
  intro es n h
  cases es with
  | nil => rfl
  | cons e es =>
    simp only [scanCatSec]
    rw [if_pos ((parse33_flag_zero n e).mpr (h e (by simp)))]

theorem scanCat_length : ∀ (es : List Bytes) (n : Nat), (scanCatSec 560 n es).length ≤ es.length := by
  intro es
  induction es with
  | nil => intro n; exact Nat.le_refl _
  | cons e es ih =>
    intro n
    simp only [scanCatSec]
    split
    · simp
    · simpa using ih (n + 1)

/-- a scan that uses all entries goes on -/
theorem scanCat_append_full : ∀ (a r : List Bytes) (n : Nat), (scanCatSec 560 n a).length = a.length →
    scanCatSec 560 n (a ++ r) = scanCatSec 560 n a ++ scanCatSec 560 (n + a.length) r := by
  intro a
  induction a with
  | nil => intro r n _; rfl
  | cons e a ih =>
    intro r n h
    simp only [List.cons_append, scanCatSec] at h ⊢
    split
    · rename_i hf; rw [if_pos hf] at h; simp at h
    · rename_i hf
      rw [if_neg hf] at h
      rw [ih r (n + 1) (by simpa using h), List.cons_append, List.length_cons]
      congr 3; omega

theorem scanCat_append_short : ∀ (a r : List Bytes) (n : Nat), (scanCatSec 560 n a).length < a.length →
    scanCatSec 560 n (a ++ r) = scanCatSec 560 n a := by
  intro a
  induction a with
  | nil => intro r n h; simp at h
  | cons e a ih =>
    intro r n h
    simp only [List.cons_append, scanCatSec] at h ⊢
    split
    · rfl
    · rename_i hf
      rw [if_neg hf] at h
      rw [ih r (n + 1) (by simpa using h)]

theorem catLoop_unused {b : Bytes} (hb : b.length = 143360) {s cs} (h : Chain33 b s cs) : ∀ (fuel n : Nat), cs.length < fuel →
    (∀ e ∈ catRaw b cs, UnusedSlot e) → catLoop 560 b fuel s n = .ok [] := by
  induction h with
  | nil =>
    intro fuel n hf _
    cases fuel with
    | zero => omega
    | succ fuel => rfl
  | @cons s cs h0 h1 _ ih =>
    intro fuel n hf hu
    cases fuel with
    | zero => omega
    | succ fuel =>
      have hl := length_sec33 hb h1
      simp only [catLoop]
      rw [if_neg h0, if_neg (by omega), if_neg (by omega)]
      have hu1 : ∀ e ∈ catEntries (sec33 b s), UnusedSlot e := fun e he => hu e (by simp [catRaw]; exact .inl he)
      rw [scanCat_unused _ _ hu1]
      rw [ih fuel _ (by simpa using hf) (fun e he => hu e (by
        rw [catRaw] at he ⊢; rw [List.flatMap_cons]; exact List.mem_append_right _ he))]
      rfl

/-- the catalog loop is the scan of all entries, if nothing follows an unused slot -/
theorem catLoop_eq {b : Bytes} (hb : b.length = 143360) {s cs} (h : Chain33 b s cs) : ∀ (fuel n : Nat), cs.length < fuel →
    (∀ e ∈ (catRaw b cs).drop (scanCatSec 560 n (catRaw b cs)).length, UnusedSlot e) →
    catLoop 560 b fuel s n = .ok (scanCatSec 560 n (catRaw b cs)) := by
  induction h with
  | nil =>
    intro fuel n hf _
    cases fuel with
    | zero => omega
    | succ fuel => rfl
  | @cons s cs h0 h1 h2 ih =>
    intro fuel n hf hu
    cases fuel with
    | zero => omega
    | succ fuel =>
      have hl := length_sec33 hb h1
      have h7 := (catEntries_len hl).1
      have e : catRaw b (s :: cs) = catEntries (sec33 b s) ++ catRaw b cs := by rw [catRaw, List.flatMap_cons]; rfl
      rw [e] at hu ⊢
      simp only [catLoop]
      rw [if_neg h0, if_neg (by omega), if_neg (by omega)]
      have hle := scanCat_length (catEntries (sec33 b s)) n
      by_cases hfull : (scanCatSec 560 n (catEntries (sec33 b s))).length = (catEntries (sec33 b s)).length
      · rw [scanCat_append_full _ _ _ hfull] at hu ⊢
        rw [hfull, ih fuel _ (by simpa using hf) ?_]
        rw [List.length_append, hfull, ← List.drop_drop, List.drop_append, List.drop_eq_nil_of_le (Nat.le_refl _)] at hu
        simpa using hu
      · have hlt : (scanCatSec 560 n (catEntries (sec33 b s))).length < (catEntries (sec33 b s)).length := by omega
        rw [scanCat_append_short _ _ _ hlt] at hu ⊢
        rw [catLoop_unused hb h2 fuel _ (by simpa using hf) ?_]
        · simp only [List.append_nil]
        · intro e he
          refine hu e ?_
          rw [List.drop_append, show (scanCatSec 560 n (catEntries (sec33 b s))).length - (catEntries (sec33 b s)).length = 0 by omega]
          exact List.mem_append_right _ he

/-- scan of encoded entries followed by unused slots -/
theorem scanCat_encoded : ∀ (encs : List Bytes) (ds : List DDirent) (n : Nat) (rest : List Bytes), encs.length = ds.length →
    (∀ i r d, encs[i]? = some r → ds[i]? = some d → DDirent.parse 560 (n + i) r = d ∧ d.flag ≠ 0) →
    (∀ e ∈ rest, UnusedSlot e) → scanCatSec 560 n (encs ++ rest) = ds := by
  intro encs
  induction encs with
  | nil =>
    intro ds n rest hl _ hr
    have : ds = [] := by simpa using hl.symm
    rw [this]
    exact scanCat_unused rest n hr
  | cons r encs ih =>
    intro ds n rest hl hp hr
    match ds, hl with
    | d :: ds, hl =>
      obtain ⟨h1, h2⟩ := hp 0 r d rfl rfl
      have h1 : DDirent.parse 560 n r = d := h1
      simp only [List.cons_append, scanCatSec]
      rw [h1, if_neg h2, ih ds (n + 1) rest (by simpa using hl) (fun i r' d' hr' hd' => by
        have := hp (i + 1) r' d' (by simpa using hr') (by simpa using hd')
        rwa [show n + 1 + i = n + (i + 1) by omega]) hr]

theorem scanCat_get : ∀ (es : List Bytes) (n i : Nat) (d : DDirent), (scanCatSec 560 n es)[i]? = some d →
    ∃ e, es[i]? = some e ∧ d = DDirent.parse 560 (n + i) e ∧ d.flag ≠ 0 := by
  intro es
  induction es with
  | nil => intro n i d h; simp [scanCatSec] at h
  | cons e es ih =>
    intro n i d h
    simp only [scanCatSec] at h
    split at h
    · simp at h
    · rename_i hf
      cases i with
      | zero => simp at h; subst h; exact ⟨e, rfl, rfl, hf⟩
      | succ i =>
        obtain ⟨e', h1, h2, h3⟩ := ih (n + 1) i d (by simpa using h)
        exact ⟨e', by simpa using h1, by rw [h2]; congr 1; omega, h3⟩

/-! ### encoding the catalog -/

/-- bytes of a catalog sector before the link is stored -/
def catData (g : List Bytes) : Bytes := List.replicate 11 0 ++ g.flatten ++ List.replicate (245 - 35 * g.length) 0

structure EncSt33 (st : List WSector × WSector) (l : List Bytes) : Prop where
  ex : ∃ (gs : List (List Bytes)) (g : List Bytes), l = gs.flatten ++ g ∧ (∀ x ∈ gs, x.length = 7) ∧ g.length ≤ 7 ∧
    st.1.map (·.data) = gs.map catData ∧ st.2.data = catData g ∧ st.2.ptr = 11 + 35 * g.length ∧ st.2.size = 256 ∧
    (∀ x ∈ l, x.length = 35) ∧ (g = [] → l = [])

theorem freshCatSec_eq : freshCatSec.data = catData [] ∧ freshCatSec.ptr = 11 ∧ freshCatSec.size = 256 := by
  refine ⟨?_, rfl, rfl⟩
  have : (WSector.blank 256).data = List.replicate 256 0 := rfl
  unfold freshCatSec WSector.addData
  simp only
  rw [if_neg (by decide)]
  simp only [this]
  unfold splice catData
  rw [List.take_of_length_le (l := List.replicate 11 (0 : UInt8)) (by rw [List.length_replicate]; exact Nat.le_refl 11)]
  rfl

theorem length_catData {g : List Bytes} (h : ∀ x ∈ g, x.length = 35) (hl : g.length ≤ 7) : (catData g).length = 256 := by
  unfold catData
  rw [List.length_append, List.length_append, length_flatten_const g h, List.length_replicate, List.length_replicate]
  omega

theorem catData_snoc {g : List Bytes} {d : Bytes} (h : ∀ x ∈ g, x.length = 35) (hd : d.length = 35) (hl : g.length < 7) :
    splice (catData g) (11 + 35 * g.length) d = catData (g ++ [d]) := by
  unfold catData splice
  have hf := length_flatten_const g h
  have hpre : (List.replicate 11 (0 : UInt8) ++ g.flatten).length = 11 + 35 * g.length := by
    rw [List.length_append, hf, List.length_replicate]; omega
  rw [← hpre, List.take_left, List.drop_append, List.drop_eq_nil_of_le (by omega), List.drop_replicate, hpre]
  rw [List.flatten_append, List.flatten_singleton, List.length_append, List.length_singleton]
  simp only [List.append_assoc, List.nil_append]
  congr 3
  congr 1
  omega

theorem EncSt33.store {st l d} (e : EncSt33 st l) (hd : d.length = 35) : EncSt33 (storeEncoded freshCatSec st d) (l ++ [d]) := by
  obtain ⟨gs, g, h1, h2, h3, h4, h5, h6, h7, h8, h9⟩ := e.ex
  obtain ⟨done, cur⟩ := st
  simp only at h4 h5 h6 h7
  have hg : ∀ x ∈ g, x.length = 35 := fun x hx => h8 x (by rw [h1]; exact List.mem_append_right _ hx)
  have hcl := length_catData hg h3
  have h8' : ∀ x ∈ l ++ [d], x.length = 35 := by
    intro x hx
    rcases List.mem_append.mp hx with hx | hx
    · exact h8 x hx
    · rw [List.mem_singleton.mp hx]; exact hd
  obtain ⟨f1, f2, f3⟩ := freshCatSec_eq
  by_cases hfull : g.length = 7
  · have ha : cur.addData d = (cur, d) := addData_full cur d (by omega) (by omega) (by rw [h5, h7]; exact hcl)
    have hb := addData_fits freshCatSec d (by rw [f2, f3]; omega)
    have hs : storeEncoded freshCatSec (done, cur) d =
        (done ++ [cur], { freshCatSec with data := splice freshCatSec.data freshCatSec.ptr d, ptr := freshCatSec.ptr + d.length,
                                           used := freshCatSec.used + d.length }) := by
      unfold storeEncoded
      rw [storeEncodedFuel]
      simp only [ha, hd, show (35 : Nat) > 0 by omega, if_true]
      rw [storeEncodedFuel]
      simp only [hb]
      simp
      exact hd
    rw [hs]
    refine ⟨gs ++ [g], [d], ?_, ?_, by simp, ?_, ?_, ?_, f3, h8', fun h => by simp at h⟩
    · rw [h1]; simp
    · intro x hx
      rcases List.mem_append.mp hx with hx | hx
      · exact h2 x hx
      · rw [List.mem_singleton.mp hx]; exact hfull
    · simp only [List.map_append, List.map_cons, List.map_nil]; rw [h4, h5]
    · show splice freshCatSec.data freshCatSec.ptr d = _
      rw [f1, f2]
      exact catData_snoc (g := []) (fun x hx => by cases hx) hd (by decide)
    · show freshCatSec.ptr + d.length = _
      rw [f2, hd]; rfl
  · have ha := addData_fits cur d (by rw [h6, h7]; omega)
    have hs : storeEncoded freshCatSec (done, cur) d =
        (done, { cur with data := splice cur.data cur.ptr d, ptr := cur.ptr + d.length, used := cur.used + d.length }) := by
      unfold storeEncoded
      rw [storeEncodedFuel]
      simp [ha]
    rw [hs]
    refine ⟨gs, g ++ [d], ?_, h2, by simp; omega, h4, ?_, ?_, h7, h8', fun h => by simp at h⟩
    · rw [h1]; simp
    · show splice cur.data cur.ptr d = _
      rw [h5, h6]
      exact catData_snoc hg hd (by omega)
    · show cur.ptr + d.length = _
      rw [h6, hd]; simp; omega

theorem encSt33_foldl : ∀ (encs : List Bytes) (st : List WSector × WSector) (l : List Bytes), EncSt33 st l →
    (∀ d ∈ encs, d.length = 35) → EncSt33 (encs.foldl (storeEncoded freshCatSec) st) (l ++ encs) := by
  intro encs
  induction encs with
  | nil => intro st l e _; simpa using e
  | cons d encs ih =>
    intro st l e hd
    have := ih _ _ (e.store (hd d (by simp))) (fun x hx => hd x (by simp [hx]))
    rw [List.foldl_cons]
    simpa using this

theorem chunks_one {α} {n : Nat} (hn : 0 < n) {l : List α} (h0 : l ≠ []) (hl : l.length ≤ n) : chunks n l = [l] := by
  rw [chunks_cons n hn l h0, List.take_of_length_le hl, List.drop_eq_nil_of_le hl]
  rfl

/-- the catalog sectors hold seven encoded entries each -/
theorem calcSectors33 {encs : List Bytes} (h0 : encs ≠ []) (hd : ∀ d ∈ encs, d.length = 35) :
    (calcSectors freshCatSec encs).map (·.data) = (chunks 7 encs).map catData := by
  obtain ⟨f1, f2, f3⟩ := freshCatSec_eq
  have e0 : EncSt33 ([], freshCatSec) [] :=
    ⟨[], [], rfl, (fun x hx => by cases hx), by decide, rfl, f1, f2, f3, (fun x hx => by cases hx), fun _ => rfl⟩
  have e := encSt33_foldl encs _ _ e0 hd
  rw [List.nil_append] at e
  obtain ⟨gs, g, h1, h2, h3, h4, h5, h6, h7, h8, h9⟩ := e.ex
  unfold calcSectors
  generalize hst : encs.foldl (storeEncoded freshCatSec) ([], freshCatSec) = st at *
  obtain ⟨done, cur⟩ := st
  simp only at h4 h5 h6 h7 ⊢
  rw [if_neg (by omega), List.map_append, h4]
  have hg : g ≠ [] := fun hg => h0 (h9 hg)
  rw [h1, chunks_flatten_append 7 (by omega) gs g h2, chunks_one (by omega) hg h3, List.map_append]
  simp [h5]

/-! ### numbering -/

theorem numberCat_ok {b : Bytes} (hb : b.length = 143360) : ∀ (ws : List WSector) {s : Nat} {cs : List Nat}, Chain33 b s cs →
    ws.length < cs.length →
    ∃ ws', numberCatSecs 560 b s ws = .ok ws' ∧ ws'.map (·.num) = cs.take ws.length ∧
      ∀ (j : Nat) (w : WSector), ws[j]? = some w → ∃ w' c, ws'[j]? = some w' ∧ cs[j]? = some c ∧ w'.num = c ∧
        w'.data = splice w.data 1 (tsBytes (linkOf (sec33 b c))) := by
  intro ws
  induction ws with
  | nil => intro s cs _ _; exact ⟨[], rfl, rfl, fun j w h => by simp at h⟩
  | cons w ws ih =>
    intro s cs h hl
    cases h with
    | nil => simp at hl
    | @cons _ cs h0 h1 h2 =>
      have hlen := length_sec33 hb h1
      have hne : linkOf (sec33 b s) ≠ 0 := by
        intro he
        rw [he] at h2
        cases h2 with
        | nil => simp at hl
        | cons h0 _ _ => exact h0 rfl
      obtain ⟨ws', i1, i2, i3⟩ := ih h2 (by simpa using hl)
      refine ⟨WSector.setNext33 { w with num := s } (linkOf (sec33 b s)) :: ws', ?_, ?_, ?_⟩
      · simp only [numberCatSecs]
        rw [if_neg (by omega), if_neg (by omega), if_neg hne, i1]
      · simp [WSector.setNext33, i2]
      · intro j x hx
        cases j with
        | zero =>
          simp at hx; subst hx
          exact ⟨_, s, rfl, rfl, rfl, rfl⟩
        | succ j =>
          obtain ⟨w', c, g1, g2, g3, g4⟩ := i3 j x (by simpa using hx)
          exact ⟨w', c, by simpa using g1, by simpa using g2, g3, g4⟩

/-- too few catalog sectors -/
theorem numberCat_full {b : Bytes} (hb : b.length = 143360) : ∀ (ws : List WSector) {s : Nat} {cs : List Nat}, Chain33 b s cs →
    s ≠ 0 → cs.length ≤ ws.length → numberCatSecs 560 b s ws = .error .noSpaceInDirectory := by
  intro ws
  induction ws with
  | nil => intro s cs h h0 hl; cases h with
    | nil => exact absurd rfl h0
    | cons _ _ _ => simp at hl
  | cons w ws ih =>
    intro s cs h hs hl
    cases h with
    | nil => exact absurd rfl hs
    | @cons _ cs h0 h1 h2 =>
      have hlen := length_sec33 hb h1
      simp only [numberCatSecs]
      rw [if_neg (by omega), if_neg (by omega)]
      by_cases hz : linkOf (sec33 b s) = 0
      · rw [if_pos hz]
      · rw [if_neg hz, ih h2 hz (by simpa using hl)]

theorem encodeAll33_ok : ∀ (ds : List DDirent), (∀ d ∈ ds, d.Encodable) → ∃ encs, encodeAll33 ds = .ok encs ∧
    encs.length = ds.length ∧ (∀ e ∈ encs, e.length = 35) ∧
    ∀ (i : Nat) (e : Bytes) (d : DDirent), encs[i]? = some e → ds[i]? = some d → d.encode = .ok e := by
  intro ds
  induction ds with
  | nil => intro _; exact ⟨[], rfl, rfl, (fun e he => by cases he), fun i e d h => by simp at h⟩
  | cons d ds ih =>
    intro h
    obtain ⟨x, hx, hxl, _⟩ := encode33_ok (h d (by simp))
    obtain ⟨encs, i1, i2, i3, i4⟩ := ih (fun y hy => h y (by simp [hy]))
    refine ⟨x :: encs, ?_, by simp [i2], ?_, ?_⟩
    · simp only [encodeAll33, hx, i1]
    · intro e he
      rcases List.mem_cons.mp he with rfl | he
      · exact hxl
      · exact i3 e he
    · intro i e d' he hd'
      cases i with
      | zero => simp at he hd'; subst he; subst hd'; exact hx
      | succ i => exact i4 i e d' (by simpa using he) (by simpa using hd')

/-- entries of a rewritten catalog sector -/
theorem catEntries_catData {g : List Bytes} {n : Nat} (h : ∀ x ∈ g, x.length = 35) (hl : g.length ≤ 7) :
    catEntries (splice (catData g) 1 (tsBytes n)) = g ++ List.replicate (7 - g.length) (List.replicate 35 0) := by
  have hlen := length_catData h hl
  unfold catEntries
  rw [drop_splice (by show 1 + 2 ≤ 11; omega) (by omega)]
  have : (catData g).drop 11 = (g ++ List.replicate (7 - g.length) (List.replicate 35 (0 : UInt8))).flatten := by
    unfold catData
    rw [List.append_assoc, List.drop_append, List.drop_eq_nil_of_le (by rw [List.length_replicate]; omega), List.length_replicate]
    rw [List.nil_append, Nat.sub_self, List.drop_zero, List.flatten_append]
    congr 1
    have : ∀ k, (List.replicate k (List.replicate 35 (0 : UInt8))).flatten = List.replicate (35 * k) 0 := by
      intro k
      induction k with
      | zero => rfl
      | succ k ih => rw [List.replicate_succ, List.flatten_cons, ih, List.replicate_append_replicate]; congr 1; omega
    rw [this]
    congr 1; omega
  rw [this]
  have hc := chunks_flatten_append 35 (by omega) (g ++ List.replicate (7 - g.length) (List.replicate 35 (0 : UInt8))) ([] : Bytes) (by
    intro x hx
    rcases List.mem_append.mp hx with hx | hx
    · exact h x hx
    · rw [(List.mem_replicate.mp hx).2, List.length_replicate])
  rw [List.append_nil] at hc
  rw [hc, show chunks 35 ([] : Bytes) = [] from rfl, List.append_nil]

theorem catRaw_frame {b b' : Bytes} {cs : List Nat} (h : ∀ c ∈ cs, sec33 b' c = sec33 b c) : catRaw b' cs = catRaw b cs := by
  unfold catRaw
  induction cs with
  | nil => rfl
  | cons c cs ih =>
    rw [List.flatMap_cons, List.flatMap_cons, h c (by simp), ih (fun x hx => h x (by simp [hx]))]

theorem length_catRaw {b : Bytes} (hb : b.length = 143360) : ∀ (cs : List Nat), (∀ c ∈ cs, c < 560) →
    (catRaw b cs).length = 7 * cs.length := by
  intro cs
  induction cs with
  | nil => intro _; rfl
  | cons c cs ih =>
    intro h
    have := (catEntries_len (length_sec33 hb (h c (by simp)))).1
    rw [catRaw, List.flatMap_cons, List.length_append, this]
    rw [catRaw] at ih
    rw [ih (fun x hx => h x (by simp [hx]))]
    simp; omega

/-- the catalog after rewriting: encoded entries, unused slots, and the old slots of the remaining sectors -/
theorem catRaw_write {b b' : Bytes} (hb : b.length = 143360) : ∀ (gs : List (List Bytes)) (cs : List Nat), (∀ c ∈ cs, c < 560) →
    gs.length ≤ cs.length → (∀ g ∈ gs, g.length ≤ 7) → (∀ g ∈ gs, ∀ x ∈ g, x.length = 35) → (∀ g ∈ gs.dropLast, g.length = 7) →
    (∀ (j : Nat) (g : List Bytes) (c : Nat), gs[j]? = some g → cs[j]? = some c →
      ∃ n, sec33 b' c = splice (catData g) 1 (tsBytes n)) →
    (∀ (j c : Nat), gs.length ≤ j → cs[j]? = some c → sec33 b' c = sec33 b c) →
    ∃ z, catRaw b' cs = gs.flatten ++ List.replicate z (List.replicate 35 0) ++ (catRaw b cs).drop (7 * gs.length) := by
  intro gs
  induction gs with
  | nil =>
    intro cs _ _ _ _ _ _ h2
    refine ⟨0, ?_⟩
    rw [catRaw_frame (b := b) (b' := b')]
    · simp
    · intro c hc
      obtain ⟨j, hj⟩ := List.mem_iff_getElem?.mp hc
      exact h2 j c (by simp) hj
  | cons g gs ih =>
    intro cs hcs hl h7 h35 hd h1 h2
    match cs, hl with
    | c :: cs, hl =>
      obtain ⟨n, hn⟩ := h1 0 g c rfl rfl
      have hg7 := h7 g (by simp)
      have hg35 := h35 g (by simp)
      have hE : catEntries (sec33 b' c) = g ++ List.replicate (7 - g.length) (List.replicate 35 0) := by
        rw [hn]; exact catEntries_catData hg35 hg7
      have hold := (catEntries_len (length_sec33 hb (hcs c (by simp)))).1
      have e' : catRaw b' (c :: cs) = catEntries (sec33 b' c) ++ catRaw b' cs := by rw [catRaw, List.flatMap_cons]; rfl
      have e : catRaw b (c :: cs) = catEntries (sec33 b c) ++ catRaw b cs := by rw [catRaw, List.flatMap_cons]; rfl
      have hdrop : (catRaw b (c :: cs)).drop (7 * (g :: gs).length) = (catRaw b cs).drop (7 * gs.length) := by
        rw [e, List.drop_append, List.drop_eq_nil_of_le (by rw [hold]; simp; omega), hold, List.nil_append]
        congr 1
      have hcs' : ∀ x ∈ cs, x < 560 := fun x hx => hcs x (by simp [hx])
      have h7' : ∀ x ∈ gs, x.length ≤ 7 := fun x hx => h7 x (by simp [hx])
      have h35' : ∀ x ∈ gs, ∀ y ∈ x, y.length = 35 := fun x hx => h35 x (by simp [hx])
      have h1' : ∀ (j : Nat) (g : List Bytes) (c : Nat), gs[j]? = some g → cs[j]? = some c →
          ∃ n, sec33 b' c = splice (catData g) 1 (tsBytes n) :=
        fun j g' c' hg' hc' => h1 (j + 1) g' c' (by simpa using hg') (by simpa using hc')
      have h2' : ∀ (j c : Nat), gs.length ≤ j → cs[j]? = some c → sec33 b' c = sec33 b c :=
        fun j c' hj hc' => h2 (j + 1) c' (by simpa using hj) (by simpa using hc')
      by_cases hgs : gs = []
      · subst hgs
        refine ⟨7 - g.length, ?_⟩
        rw [e', hE, hdrop]
        have : catRaw b' cs = catRaw b cs := catRaw_frame (by
          intro x hx
          obtain ⟨j, hj⟩ := List.mem_iff_getElem?.mp hx
          exact h2' j x (by simp) hj)
        rw [this]
        simp
      · have hd' : ∀ x ∈ gs.dropLast, x.length = 7 := by
          intro x hx
          refine hd x ?_
          rw [List.dropLast_cons_of_ne_nil hgs]
          exact List.mem_cons_of_mem _ hx
        obtain ⟨z, hz⟩ := ih cs hcs' (by simpa using hl) h7' h35' hd' h1' h2'
        have hg : g.length = 7 := hd g (by rw [List.dropLast_cons_of_ne_nil hgs]; simp)
        refine ⟨z, ?_⟩
        rw [e', hE, hdrop, hz, hg]
        simp

theorem unused_zero : UnusedSlot (List.replicate 35 0) := by
  constructor
  · exact (by decide : (List.replicate 35 (0 : UInt8)).getD 0 0 ≠ 0xff)
  · rfl

theorem chunks_dropLast {α} (n : Nat) (hn : 0 < n) (l : List α) : ∀ g ∈ (chunks n l).dropLast, g.length = n := by
  induction l using chunks_induction n hn with
  | nil => intro g hg; simp [chunks, chunksFuel] at hg
  | step l hl ih =>
    intro g hg
    rw [chunks_cons n hn l hl] at hg
    by_cases hr : chunks n (l.drop n) = []
    · rw [hr] at hg; simp at hg
    · rw [List.dropLast_cons_of_ne_nil hr] at hg
      rcases List.mem_cons.mp hg with rfl | hg
      · rw [List.length_take]
        have : l.drop n ≠ [] := fun h => hr (by rw [h]; rfl)
        have : n < l.length := by
          refine Nat.lt_of_not_le fun hle => this (List.drop_eq_nil_of_le hle)
        omega
      · exact ih g hg

end Atr
