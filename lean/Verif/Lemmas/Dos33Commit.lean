import Verif.Lemmas.Dos33Inv
/-! # DOS 3.3: rewriting the catalog and the VTOC -/
namespace Atr

theorem Chain33.link {b s cs} (h : Chain33 b s cs) : ∀ (j x : Nat), cs[j]? = some x → linkOf (sec33 b x) = cs.getD (j + 1) 0 := by
  induction h with
  | nil => intro j x hx; simp at hx
  | @cons s cs h0 h1 h2 ih =>
    intro j x hx
    cases j with
    | zero =>
      simp at hx; subst hx
      generalize linkOf (sec33 b s) = t at h2
      cases h2 <;> rfl
    | succ j =>
      rw [List.getElem?_cons_succ] at hx
      rw [ih j x hx]
      rfl

theorem getD_lt_560 {l : List Nat} (h : ∀ x ∈ l, x < 560) (j : Nat) : l.getD j 0 < 560 := by
  rw [List.getD_eq_getElem?_getD]
  cases hj : l[j]? with
  | none => simp
  | some x => exact h x (List.mem_of_getElem? hj)

theorem Chain33.headD {b s cs} (h : Chain33 b s cs) : s = cs.headD 0 := by cases h <;> rfl

/-- a list whose links lead from one element to the next is a chain -/
theorem chain_of_links {b : Bytes} : ∀ (ns : List Nat), (∀ n ∈ ns, n ≠ 0 ∧ n < 560) →
    (∀ (j n : Nat), ns[j]? = some n → linkOf (sec33 b n) = ns.getD (j + 1) 0) → Chain33 b (ns.headD 0) ns := by
  intro ns
  induction ns with
  | nil => intro _ _; exact .nil
  | cons n ns ih =>
    intro h1 h2
    refine .cons (h1 n (by simp)).1 (h1 n (by simp)).2 ?_
    have := ih (fun x hx => h1 x (by simp [hx])) (fun j x hx => by
      have := h2 (j + 1) x (by rw [List.getElem?_cons_succ]; exact hx)
      rw [this]; rfl)
    have h0 := h2 0 n rfl
    show Chain33 b (linkOf (sec33 b n)) ns
    rw [h0]
    cases ns with
    | nil => exact this
    | cons a l => exact this

/-- the catalog after a rewrite -/
structure CatNew (b2 b' : Bytes) (s0 : Nat) (cs : List Nat) (ds' : List DDirent) : Prop where
  size : b'.length = 143360
  others : ∀ s, s ∉ cs → sec33 b' s = sec33 b2 s
  chain : Chain33 b' s0 cs
  dir : (∀ d ∈ ds', d.deleted = false → d.ftype ≠ 0) → scanCatSec 560 0 (catRaw b' cs) = ds'.mapIdx fun i d => d.reread i
  term : ∀ e ∈ (catRaw b' cs).drop ds'.length, UnusedSlot e

theorem catCommit {b cs ds} (c : Consistent33 b cs ds) {ds' : List DDirent} (henc : ∀ d ∈ ds', d.Encodable) (hne : ds' ≠ [])
    (hlen : ds.length ≤ ds'.length) (hroom : ds'.length ≤ 7 * (cs.length - 1))
    {m : DImg} (hm1 : m.maxSectors = 560)
    (hm2 : m.firstDir = linkOf (sec33 b 272)) (hm3 : m.bytes.length = 143360) (hm4 : ∀ x ∈ cs, sec33 m.bytes x = sec33 b x) :
    ∃ cat, m.calcCatSectors ds' = .ok cat ∧ Writable33 cat ∧ (∀ w ∈ cat, w.num ∈ cs) ∧
      ∀ b2, b2.length = 143360 → (∀ x ∈ cs, sec33 b2 x = sec33 b x) → CatNew b2 (writeAll33 b2 cat) (linkOf (sec33 b 272)) cs ds' := by
  obtain ⟨encs, e1, e2, e3, e4⟩ := encodeAll33_ok ds' henc
  have hnee : encs ≠ [] := by
    intro h; rw [h] at e2; exact hne (List.length_eq_zero_iff.mp e2.symm)
  have hws := calcSectors33 hnee e3
  generalize hw : calcSectors freshCatSec encs = ws at hws
  have hch : Chain33 m.bytes (linkOf (sec33 b 272)) cs := c.cat.frame (fun x hx => by rw [hm4 x hx])
  have hgl : (chunks 7 encs).length = (ds'.length + 6) / 7 := by rw [length_chunks 7 (by omega), e2]; omega
  have hwl : ws.length = (chunks 7 encs).length := by have := congrArg List.length hws; simpa using this
  have hpos : 0 < ds'.length := List.length_pos_iff.mpr hne
  obtain ⟨cat, q1, q2, q3⟩ := numberCat_ok hm3 ws hch (by omega)
  have hcl : cat.length = ws.length := by
    have := congrArg List.length q2
    rw [List.length_map, List.length_take] at this
    omega
  have hcs : ∀ x ∈ cs, x < 560 := fun x hx => (c.cat.lt x hx).2
  -- what each catalog sector holds
  have hcat : ∀ (j : Nat) (w : WSector), cat[j]? = some w → ∃ g x, (chunks 7 encs)[j]? = some g ∧ cs[j]? = some x ∧ w.num = x ∧
      w.data = splice (catData g) 1 (tsBytes (cs.getD (j + 1) 0)) := by
    intro j w hj
    have hjl : j < ws.length := by rw [← hcl]; exact (List.getElem?_eq_some_iff.mp hj).1
    obtain ⟨w', x, h1, h2, h3, h4⟩ := q3 j ws[j] (List.getElem?_eq_getElem hjl)
    rw [hj] at h1; injection h1 with h1; subst h1
    have hg : ((chunks 7 encs).map catData)[j]? = some ws[j].data := by
      rw [← hws, List.getElem?_map, List.getElem?_eq_getElem hjl]; rfl
    rw [List.getElem?_map] at hg
    obtain ⟨g, hg1, hg2⟩ := Option.map_eq_some_iff.mp hg
    refine ⟨g, x, hg1, h2, h3, ?_⟩
    rw [h4, hg2, hch.link j x h2]
  have hgs : ∀ g ∈ chunks 7 encs, g.length ≤ 7 := fun g hg => (mem_chunks_length 7 (by omega) encs g hg).2
  have hg35 : ∀ g ∈ chunks 7 encs, ∀ x ∈ g, x.length = 35 := by
    intro g hg x hx
    refine e3 x ?_
    rw [← chunks_flatten 7 (by omega) encs]
    exact List.mem_flatten.mpr ⟨g, hg, hx⟩
  have hwr : Writable33 cat := by
    intro w hw
    obtain ⟨j, hj⟩ := List.getElem?_of_mem hw
    obtain ⟨g, x, h1, h2, h3, h4⟩ := hcat j w hj
    have hgm := List.mem_of_getElem? h1
    have hl := length_catData (hg35 g hgm) (hgs g hgm)
    refine ⟨by rw [h3]; exact hcs x (List.mem_of_getElem? h2), ?_⟩
    rw [h4, length_splice _ _ _ (by rw [hl]; simp [tsBytes]), hl]
  have hin : ∀ w ∈ cat, w.num ∈ cs := by
    intro w hw
    obtain ⟨j, hj⟩ := List.getElem?_of_mem hw
    obtain ⟨g, x, h1, h2, h3, h4⟩ := hcat j w hj
    rw [h3]; exact List.mem_of_getElem? h2
  refine ⟨cat, ?_, hwr, hin, ?_⟩
  · unfold DImg.calcCatSectors
    rw [e1]
    simp only
    rw [hm1, hm2, hw, q1]
  intro b2 hb2 hsame
  have hnd : (cat.map (·.num)).Nodup := by rw [q2]; exact c.cat.nodup.sublist (List.take_sublist _ _)
  have hoth := sec33_writeAll_other cat b2 hb2 hwr
  have hmem := sec33_writeAll_mem cat b2 hb2 hwr hnd
  have hsec : ∀ (j : Nat) (g : List Bytes) (x : Nat), (chunks 7 encs)[j]? = some g → cs[j]? = some x →
      sec33 (writeAll33 b2 cat) x = splice (catData g) 1 (tsBytes (cs.getD (j + 1) 0)) := by
    intro j g x hg hx
    have hjl : j < cat.length := by rw [hcl, hwl]; exact (List.getElem?_eq_some_iff.mp hg).1
    obtain ⟨g', x', h1, h2, h3, h4⟩ := hcat j cat[j] (List.getElem?_eq_getElem hjl)
    rw [hg] at h1; injection h1 with h1; subst h1
    rw [hx] at h2; injection h2 with h2; subst h2
    rw [← h3, hmem _ (List.getElem_mem hjl), h4]
  have hrest : ∀ (j x : Nat), (chunks 7 encs).length ≤ j → cs[j]? = some x → sec33 (writeAll33 b2 cat) x = sec33 b2 x := by
    intro j x hj hx
    refine hoth x (fun w hw he => ?_)
    obtain ⟨i, hi⟩ := List.getElem?_of_mem hw
    obtain ⟨g, x', h1, h2, h3, h4⟩ := hcat i w hi
    have hil := (List.getElem?_eq_some_iff.mp h1).1
    rw [← h3, he] at h2
    obtain ⟨a1, a2⟩ := List.getElem?_eq_some_iff.mp h2
    obtain ⟨b1, b2⟩ := List.getElem?_eq_some_iff.mp hx
    exact absurd (a2.trans b2.symm) (List.pairwise_iff_getElem.mp c.cat.nodup i j a1 b1 (by omega))
  have hlink : ∀ x ∈ cs, linkOf (sec33 (writeAll33 b2 cat) x) = linkOf (sec33 b x) := by
    intro x hx
    obtain ⟨j, hj⟩ := List.getElem?_of_mem hx
    by_cases hjg : j < (chunks 7 encs).length
    · have hgm := List.getElem_mem hjg
      have hl := length_catData (hg35 _ hgm) (hgs _ hgm)
      rw [hsec j _ x (List.getElem?_eq_getElem hjg) hj,
        linkOf_setNext hl (by have := getD_lt_560 hcs (j + 1); omega), c.cat.link j x hj]
    · rw [hrest j x (by omega) hj, hsame x hx]
  obtain ⟨z, hz⟩ := catRaw_write (b' := writeAll33 b2 cat) hb2 (chunks 7 encs) cs hcs (by omega) hgs hg35 (chunks_dropLast 7 (by omega) encs)
    (fun j g x hg hx => ⟨_, hsec j g x hg hx⟩) hrest
  rw [chunks_flatten 7 (by omega), catRaw_frame hsame, List.append_assoc] at hz
  have hun : ∀ e ∈ List.replicate z (List.replicate 35 0) ++ (catRaw b cs).drop (7 * (chunks 7 encs).length), UnusedSlot e := by
    intro e he
    rcases List.mem_append.mp he with he | he
    · rw [List.eq_of_mem_replicate he]; exact unused_zero
    · refine c.term e ?_
      rw [show 7 * (chunks 7 encs).length = ds.length + (7 * (chunks 7 encs).length - ds.length) by omega, ← List.drop_drop] at he
      exact List.mem_of_mem_drop he
  refine ⟨length_writeAll33 cat b2 hb2 hwr, fun s hs => hoth s (fun w hw he => hs (he ▸ hin w hw)), c.cat.frame hlink, ?_, ?_⟩
  · intro hflag
    rw [hz]
    refine scanCat_encoded encs _ 0 _ (by rw [List.length_mapIdx, e2]) ?_ hun
    intro i r d hr hd
    rw [List.getElem?_mapIdx] at hd
    obtain ⟨d0, h1, h2⟩ := Option.map_eq_some_iff.mp hd
    have hm := List.mem_of_getElem? h1
    rw [Nat.zero_add, parse33_encode (henc d0 hm) (e4 i r d0 hr h1) i, ← h2]
    exact ⟨rfl, reread_flag_ne i (hflag d0 hm)⟩
  · rw [hz, ← e2, List.drop_left]
    exact hun

/-! ### VTOC -/

theorem isFree33_store {b : Bytes} (hb : b.length = 143360) {v : Bytes} (hv : v.length = 256) {map : List Bool}
    (h : sec33 b 272 = vtocStore33 v map) (s : Nat) : IsFree33 b s ↔ s < 800 ∧ map[s]? = some true := by
  rw [isFree33_iff hb, h, vtocMap33_store hv]
  by_cases hs : s < 800
  · rw [List.getElem?_append_left (by simpa using hs), List.getElem?_map, List.getElem?_range hs]
    simp only [Option.map_some, Option.some.injEq, hs, true_and, List.getD_eq_getElem?_getD]
    cases hm : map[s]? with
    | none => simp
    | some x => simp
  · rw [List.getElem?_append_right (by simp; omega)]
    exact ⟨fun hh => absurd hh (restMap33_get _), fun hh => absurd hh.1 hs⟩

/-- the parts of the VTOC sector other than the bitmap survive -/
structure VtocKept (b b' : Bytes) : Prop where
  keep : ∀ i, i < 0x38 → (sec33 b' 272).getD i 0 = (sec33 b 272).getD i 0

theorem vtocKept_store {b b' : Bytes} (hb : b.length = 143360) {map : List Bool} (h : sec33 b' 272 = vtocStore33 (sec33 b 272) map) :
    VtocKept b b' := ⟨fun i hi => by rw [h, vtocStore33_head (length_sec33 hb (by omega)) map hi]⟩

theorem VtocKept.link {b b' : Bytes} (h : VtocKept b b') : linkOf (sec33 b' 272) = linkOf (sec33 b 272) :=
  linkOf_congr (h.keep 1 (by omega)) (h.keep 2 (by omega))

end Atr
