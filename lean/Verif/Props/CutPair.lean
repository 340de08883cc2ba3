import Verif.Props.CutSplit
/-!
# Neighbours on the sweep line, for C84
-/

namespace Idc

namespace Cut

open Plan

variable {G : Plan} {C : Cut G} {Heap : (EndId → EndId → Res Ordering) → List EndId → Prop} {g : Ghost} {st st' : SweepState ℝ}

/-- While an edge has not been split where it meets others, none of those that come there from the left has ended. -/
def Whole (C : Cut G) (g : Ghost) (q : List EndId) : Prop := ∀ k m, C.Joint k m → g.cov k = g.cov m → ∀ j ∈ G.S, G.rp j = G.rp k → (j, SegmentEnd.right) ∈ q

/-- No piece of the second segment ends at an inner joint of the first. -/
def Misses (C : Cut G) (g : Ghost) (x y : ℕ) : Prop := ∀ k m, C.Joint k m → g.cov k = x → g.cov m = x → ∀ j ∈ G.S, G.rp j = G.rp k → g.cov j ≠ y

/-- Two segments do not meet. -/
def Adj (C : Cut G) (g : Ghost) (x y : ℕ) : Prop := Misses C g x y ∧ Misses C g y x

theorem Misses.mono {g' : Ghost} {x y x' y' : ℕ} (h : Misses C g x y) (hx : ∀ k ∈ G.S, g'.cov k = x' → g.cov k = x) (hy : ∀ k ∈ G.S, g'.cov k = y' → g.cov k = y) :
    Misses C g' x' y' := fun k m hk h1 h2 j hj he h3 => h k m hk (hx k hk.left h1) (hx m hk.right h2) j hj he (hy j hj h3)

theorem Adj.mono {g' : Ghost} {x y x' y' : ℕ} (h : Adj C g x y) (hx : ∀ k ∈ G.S, g'.cov k = x' → g.cov k = x) (hy : ∀ k ∈ G.S, g'.cov k = y' → g.cov k = y) :
    Adj C g' x' y' := ⟨h.1.mono hx hy, h.2.mono hy hx⟩

/-- A single piece has no joints inside. -/
theorem misses_single {len x y : ℕ} (hc : Covers C g len) (hs : g.lst x = g.fst x) : Misses C g x y := by
  intro k m hk h1 h2
  exfalso
  have w1 := hc.within k hk.left
  have w2 := hc.within m hk.right
  rw [h1] at w1
  rw [h2] at w2
  have := hk.lt
  have := w1.1.le
  have l2 := w2.2.le
  rw [hs] at l2
  linarith

theorem adj_single {len x y : ℕ} (hc : Covers C g len) (hx : g.lst x = g.fst x) (hy : g.lst y = g.fst y) : Adj C g x y := ⟨misses_single hc hx, misses_single hc hy⟩

/-- Which joints are inside a segment after a split. -/
theorem cut_joint {n i k m x y : ℕ} (hc : Covers C g n) (hj : C.Joint k m) (ck : g.cov k = i) (cm : g.cov m = i) (hx : C.Joint x y) :
    (cut G g n i k m).cov x = (cut G g n i k m).cov y ↔ g.cov x = g.cov y ∧ x ≠ k := by
  have lx := hc.lt x hx.left
  have ly := hc.lt y hx.right
  have own : ∀ z ∈ G.S, g.cov z = i → C.own z = C.own k := by
    intro z hz e
    have w1 := hc.within z hz
    have w2 := hc.within k hj.left
    rw [e] at w1
    rw [ck] at w2
    exact w1.own.symm.trans w2.own
  by_cases h1 : g.cov x = i
  · by_cases h2 : g.cov y = i
    · by_cases e : x = k
      · have : y = m := by subst e; exact hx.unique_right hj
        subst this; subst e
        rw [cut_cov_left h1 le_rfl, cut_cov_right h2 hj.lt]
        simp
      · rcases hj.le_or hx.left (own x hx.left h1) with h | h
        · have hlt : G.a x < G.a k := lt_of_le_of_ne h fun e' => e (eq_of_a hx.left hj.left (own x hx.left h1) e')
          have : G.a y ≤ G.a k := by rw [← hx.time]; exact b_le_a hx.left hj.left (own x hx.left h1) hlt
          rw [cut_cov_left h1 h, cut_cov_left h2 this]
          simp [e, h1, h2]
        · have l1 := hj.lt
          have l2 := hx.lt
          rw [cut_cov_right h1 (by linarith), cut_cov_right h2 (by linarith)]
          simp [e, h1, h2]
    · rw [cut_cov_other h2, h1]
      rcases le_or_gt (G.a x) (G.a k) with h | h
      · rw [cut_cov_left h1 h]
        exact ⟨fun e => by omega, fun e => absurd e.1.symm h2⟩
      · rw [cut_cov_right h1 h]
        exact ⟨fun e => by omega, fun e => absurd e.1.symm h2⟩
  · have hxk : x ≠ k := fun e => h1 (e ▸ ck)
    rw [cut_cov_other h1]
    by_cases h2 : g.cov y = i
    · rw [h2]
      rcases le_or_gt (G.a y) (G.a k) with h | h
      · rw [cut_cov_left h2 h]
        exact ⟨fun e => by omega, fun e => absurd e.1 h1⟩
      · rw [cut_cov_right h2 h]
        exact ⟨fun e => by omega, fun e => absurd e.1 h1⟩
    · rw [cut_cov_other h2]
      exact ⟨fun e => ⟨e, hxk⟩, fun e => e.1⟩

theorem cut_moves {n i k m x v : ℕ} (hc : Covers C g n) (hv : v < n) (hx : x ∈ G.S) (h : (cut G g n i k m).cov x = v) : g.cov x = v := by
  by_cases h1 : g.cov x = i
  · exfalso
    rcases le_or_gt (G.a x) (G.a k) with h' | h'
    · rw [cut_cov_left h1 h'] at h; omega
    · rw [cut_cov_right h1 h'] at h; omega
  · rwa [cut_cov_other h1] at h

theorem cut_moves_n {n i k m x : ℕ} (hc : Covers C g n) (hx : x ∈ G.S) (h : (cut G g n i k m).cov x = n) : g.cov x = i := by
  by_contra h1
  have := hc.lt x hx
  rw [cut_cov_other h1] at h; omega

/-- Two lines meet once. -/
theorem lines_once {k j k1 j1 : ℕ} (hk : k ∈ G.S) (hj : j ∈ G.S) (hs : ¬ ∀ t, G.h k t = G.h j t) (he : G.rp j = G.rp k)
    (hk1 : k1 ∈ G.S) (hj1 : j1 ∈ G.S) (o1 : C.own k1 = C.own k) (o2 : C.own j1 = C.own j) (he1 : G.rp j1 = G.rp k1) : k1 = k ∧ j1 = j := by
  have e0 : G.b j = G.b k := congrArg G.time he
  have e1 : G.b j1 = G.b k1 := congrArg G.time he1
  have f0 : G.h k (G.b k) = G.h j (G.b k) := by
    rw [G.h_right hk, ← e0, G.h_right hj, he]
  have f1 : G.h k (G.b k1) = G.h j (G.b k1) := by
    rw [C.line k hk k1 hk1 o1.symm, G.h_right hk1, ← e1, C.line j hj j1 hj1 o2.symm, G.h_right hj1, he1]
  have hb : G.b k1 = G.b k := by
    by_contra hne
    apply hs
    obtain ⟨m, c, hm⟩ := G.h_linear k
    obtain ⟨m', c', hm'⟩ := G.h_linear j
    rw [hm, hm'] at f0 f1
    have e : (m - m') * (G.b k1 - G.b k) = 0 := by linear_combination f1 - f0
    have hmm : m - m' = 0 := (mul_eq_zero.1 e).resolve_right (sub_ne_zero.2 hne)
    have hmm : m = m' := by linarith
    subst hmm
    have : c = c' := by linarith
    intro v
    rw [hm, hm', this]
  exact ⟨eq_of_b hk1 hk o1 hb, eq_of_b hj1 hj o2 (by rw [e1, hb, e0])⟩

/-- Two pieces are on the sweep line at the same time. -/
def Meanwhile (G : Plan) (k k' : ℕ) : Prop := ∃ t, G.Alive t k ∧ G.Alive t k'

/-- Pieces that are there at the same time belong to different edges. -/
theorem Meanwhile.own_ne {k k' : ℕ} (h : Meanwhile G k k') (hne : k ≠ k') : C.own k ≠ C.own k' := by
  intro e
  obtain ⟨t, ax, ay⟩ := h
  rcases disjoint ax.1 ay.1 e hne with h | h
  · have := ax.2.2; have := ay.2.1; linarith
  · have := ay.2.2; have := ax.2.1; linarith

theorem Meanwhile.time_lt {k k' : ℕ} (h : Meanwhile G k k') : G.a k < G.b k' := by
  obtain ⟨t, ax, ay⟩ := h
  exact lt_trans ax.2.1 ay.2.2

theorem Meanwhile.symm {k k' : ℕ} (h : Meanwhile G k k') : Meanwhile G k' k := by
  obtain ⟨t, ax, ay⟩ := h
  exact ⟨t, ay, ax⟩

/-- If they are along one line, they coincide. -/
theorem Meanwhile.same {k k' : ℕ} (h : Meanwhile G k k') (hh : ∀ t, G.h k t = G.h k' t) : G.Same k k' := by
  obtain ⟨t, ax, ay⟩ := h
  exact G.same_of_h ax.1 ay.1 ax.2.1 ax.2.2 ay.2.1.le ay.2.2.le (hh t)

theorem _root_.Idc.Plan.Stack.meanwhile {t : ℝ} {l : List ℕ} (h : Plan.Stack G t l) {k k' : ℕ} (hk : k ∈ l) (hk' : k' ∈ l) : Meanwhile G k k' :=
  ⟨t, h.alive k hk, h.alive k' hk'⟩

/-- Segments that do not meet, do not coincide. -/
theorem Arenas.apart {started : ℕ → Prop} {A A' : Arena ℝ} (hA : Arenas C g started A A') {x y : ℕ} (hx : x < A.length) (hlx : Live g x)
    (hy : y < A.length) (hly : Live g y) (ho : C.own (g.fst x) ≠ C.own (g.fst y)) (hns : ¬ G.Same (g.fst x) (g.fst y))
    (ht : G.a (g.fst y) < G.b (g.fst x)) (ht' : G.a (g.fst x) < G.b (g.fst y)) (ha : Adj C g x y) :
    ∃ m, m < 2 ∧ handleIntersections A (some x) (some y) = .ok (A, m, none, none) := by
  obtain ⟨s, es, is⟩ := hA.seg x hx
  obtain ⟨s', es', is'⟩ := hA.seg y hy
  have cx := hA.covers.cov x hx hlx
  have cy := hA.covers.cov y hy hly
  refine handle_apart (hA.covers.run x hx) (hA.covers.run y hy) es es' is is' ho hns ht ht' ?_ ?_
  · exact fun p q z hj hz he w1 w2 w3 => ha.1 p q hj (cx p w1) (cx q w2) z hz he (cy z w3)
  · exact fun p q z hj hz he w1 w2 w3 => ha.2 p q hj (cy p w1) (cy q w2) z hz he (cx z w3)

open Classical in
/-- The joints that have not been split yet. -/
noncomputable def unsplit (G : Plan) (g : Ghost) : ℕ := (G.S.filter fun k => g.lst (g.cov k) ≠ k).card

theorem cut_unsplit {n i k m : ℕ} (hc : Covers C g n) (hj : C.Joint k m) (ck : g.cov k = i) (cm : g.cov m = i) :
    unsplit G (cut G g n i k m) + 1 = unsplit G g := by
  classical
  obtain ⟨r1, r2⟩ := cut_within hc hj ck cm
  have hlt := hj.lt
  have hk : k ∈ G.S.filter fun k => g.lst (g.cov k) ≠ k := by
    rw [Finset.mem_filter, ck]
    refine ⟨hj.left, fun e => ?_⟩
    have := r2.le
    rw [e] at this
    linarith
  have hset : (G.S.filter fun x => (cut G g n i k m).lst ((cut G g n i k m).cov x) ≠ x) = (G.S.filter fun k => g.lst (g.cov k) ≠ k).erase k := by
    ext x
    rw [Finset.mem_erase]
    simp only [Finset.mem_filter]
    by_cases hx : x ∈ G.S
    · simp only [hx, true_and]
      by_cases h1 : g.cov x = i
      · rcases le_or_gt (G.a x) (G.a k) with h | h
        · rw [cut_cov_left h1 h, cut_lst_n, h1]
          constructor
          · intro e
            refine ⟨fun e' => e e'.symm, fun e' => ?_⟩
            have := r2.le
            rw [e'] at this
            linarith
          · rintro ⟨e, _⟩ e'
            exact e e'.symm
        · rw [cut_cov_right h1 h, cut_lst_n1, h1]
          constructor
          · intro e
            refine ⟨fun e' => ?_, e⟩
            subst e'
            exact lt_irrefl _ h
          · exact fun e => e.2
      · rw [cut_cov_other h1, cut_lst (hc.lt x hx)]
        constructor
        · intro e
          exact ⟨fun e' => h1 (e' ▸ ck), e⟩
        · exact fun e => e.2
    · simp only [hx, false_and, and_false]
  unfold unsplit
  rw [show ((G.S.filter fun x => (cut G g n i k m).lst ((cut G g n i k m).cov x) ≠ x).card) = _ from congrArg Finset.card hset, Finset.card_erase_of_mem hk]
  have : 0 < (G.S.filter fun k => g.lst (g.cov k) ≠ k).card := Finset.card_pos.2 ⟨k, hk⟩
  omega

/-- What is known after neighbours have been examined. -/
structure Checked (C : Cut G) (Heap : (EndId → EndId → Res Ordering) → List EndId → Prop) (g g' : Ghost) (st st2 st' : SweepState ℝ) (l₁ : List ℕ) (x x' y y' : ℕ)
    (l₂ : List ℕ) : Prop where
  rel : Rel C Heap g' st2 st'
  split : Whole C g' st'.queue
  active : st2.active = l₁ ++ x' :: y' :: l₂
  adj : Adj C g' x' y'
  joint : ∀ p q, C.Joint p q → g'.cov p = g'.cov q → g.cov p = g.cov q
  mx : ∀ k ∈ G.S, g'.cov k = x' → g.cov k = x
  my : ∀ k ∈ G.S, g'.cov k = y' → g.cov k = y
  mr : ∀ v ∈ l₁ ++ l₂, ∀ k ∈ G.S, g'.cov k = v → g.cov k = v
  fx : g'.fst x' = g.fst x
  fy : g'.fst y' = g.fst y
  fr : ∀ v ∈ l₁ ++ l₂, g'.fst v = g.fst v
  lr : ∀ v ∈ l₁ ++ l₂, g'.lst v = g.lst v
  size : st2.queue.length + 3 * unsplit G g' = st.queue.length + 3 * unsplit G g

/-- What is known after a segment has been made to end with one of its pieces. -/
structure Trimmed (C : Cut G) (Heap : (EndId → EndId → Res Ordering) → List EndId → Prop) (g g' : Ghost) (st st2 st' : SweepState ℝ) (x x' k : ℕ) : Prop where
  rel : Rel C Heap g' st2 st'
  active : st2.active = st.active.map fun z => if z = x then x' else z
  last : g'.lst x' = k
  mx : ∀ z ∈ G.S, g'.cov z = x' → g.cov z = x
  mr : ∀ v < st.arena.length, v ≠ x → ∀ z ∈ G.S, g'.cov z = v → g.cov z = v
  keep : ∀ z ∈ G.S, g.cov z ≠ x → g'.cov z = g.cov z
  joint : ∀ p q, C.Joint p q → g'.cov p = g'.cov q → g.cov p = g.cov q
  fx : g'.fst x' = g.fst x
  fr : ∀ v < st.arena.length, v ≠ x → g'.fst v = g.fst v
  lr : ∀ v < st.arena.length, v ≠ x → g'.lst v = g.lst v
  le : st.arena.length ≤ st2.arena.length
  new : x' = x ∨ st.arena.length ≤ x'
  size : st2.queue.length + 3 * unsplit G g' = st.queue.length + 3 * unsplit G g

theorem Rel.trim {lib : Lib} (hl : lib.Lawful) (hh : HeapOk lib Heap) (h : Rel C Heap g st st') {x k : ℕ} (hx : x ∈ st.active) (hk : k ∈ G.S) (ck : g.cov k = x) :
    ∃ st2 x' g', splitIf lib G.n st x (if k = g.lst x then none else some (G.rp k)) = .ok (st2, x') ∧ Trimmed C Heap g g' st st2 st' x x' k := by
  have hc := h.arenas.covers
  by_cases e : k = g.lst x
  · refine ⟨st, x, g, by rw [if_pos e]; rfl, h, ?_, e.symm, fun _ _ e => e, fun _ _ _ _ _ e => e, fun _ _ _ => rfl, fun _ _ _ e => e, rfl, fun _ _ _ => rfl, fun _ _ _ => rfl, le_rfl, Or.inl rfl, rfl⟩
    refine ((List.map_congr_left (g := id) ?_).trans (List.map_id _)).symm
    intro v _
    by_cases e : v = x
    · rw [if_pos e, e]; rfl
    · rw [if_neg e]; rfl
  · have w := hc.within k hk
    rw [ck] at w
    obtain ⟨m, hj, r⟩ := exists_next w.2 e
    obtain ⟨lx, hlx⟩ := h.alive x hx
    have rkm : C.Run k m := ⟨hj.left, hj.right, hj.own, hj.lt.le⟩
    have cm : g.cov m = x := hc.cov x lx hlx m ⟨w.1.trans rkm, r⟩
    obtain ⟨st1, hsp1, hR1, ha1, hq1, hw1, hlen1⟩ := h.split hl hh hx hj ck cm
    refine ⟨st1, _, _, by rw [if_neg e]; exact hsp1, hR1, ha1, cut_lst_n, fun z hz e => cut_moves_n hc hz e, fun v hv _ z hz e => cut_moves hc hv hz e,
      fun z hz e => cut_cov_other e, fun p q hp e => ((cut_joint hc hj ck cm hp).1 e).1, cut_fst_n, fun v hv _ => cut_fst hv, fun v hv _ => cut_lst hv, by omega, Or.inr le_rfl, ?_⟩
    have := cut_unsplit hc hj ck cm
    omega

/-- Neighbours are examined, and split if they meet. -/
theorem Rel.pair {lib : Lib} (hl : lib.Lawful) (hh : HeapOk lib Heap) (h : Rel C Heap g st st') (hs : Whole C g st'.queue) {l₁ l₂ : List ℕ} {x y : ℕ}
    (hact : st.active = l₁ ++ x :: y :: l₂) (hal : Meanwhile G (g.fst x) (g.fst y)) (hns : ¬ G.Same (g.fst x) (g.fst y)) :
    ∃ m p p' st1 x' st2 y' g', handleIntersections st.arena (some x) (some y) = .ok (st.arena, m, p, p') ∧ m < 2 ∧
      splitIf lib G.n st x p = .ok (st1, x') ∧ splitIf lib G.n st1 y p' = .ok (st2, y') ∧ Checked C Heap g g' st st2 st' l₁ x x' y y' l₂ := by
  have hx : x ∈ st.active := by rw [hact]; simp
  have hy : y ∈ st.active := by rw [hact]; simp
  have hnd : (l₁ ++ x :: y :: l₂).Nodup := by
    rw [← hact]
    have hst := h.inv.lower
    rw [← h.active] at hst
    exact List.Nodup.of_map _ (hst.imp Lower.ne)
  have hnd' := hnd
  rw [List.nodup_append, List.nodup_cons, List.nodup_cons] at hnd'
  have hxy : x ≠ y := fun e => hnd'.2.1.1 (by simp [e])
  obtain ⟨lx, hlx⟩ := h.alive x hx
  obtain ⟨ly, hly⟩ := h.alive y hy
  have ho : C.own (g.fst x) ≠ C.own (g.fst y) := hal.own_ne fun e => hxy (hlx.inj hly e)
  have hc := h.arenas.covers
  have w : ∀ {z v : ℕ}, z ∈ G.S → g.cov z = v → C.Within (g.fst v) (g.lst v) z := by
    intro z v hz e
    have := hc.within z hz
    rwa [e] at this
  by_cases hadj : Adj C g x y
  · obtain ⟨m, hm, e⟩ := h.arenas.apart lx hlx ly hly ho hns hal.symm.time_lt hal.time_lt hadj
    exact ⟨m, none, none, st, x, st, y, g, e, hm, rfl, rfl, h, hs, hact, hadj, fun _ _ _ e => e, fun _ _ e => e, fun _ _ e => e, fun _ _ _ _ e => e, rfl, rfl, fun _ _ => rfl, fun _ _ => rfl, rfl⟩
  · have hne_last : ∀ {k m v : ℕ}, C.Joint k m → g.cov k = v → g.cov m = v → k ≠ g.lst v := by
      intro k m v hk h1 h2 e
      have := (w hk.right h2).2.le
      rw [← e] at this
      have := hk.lt
      linarith
    have slopes : ∀ {k j : ℕ}, k ∈ G.S → j ∈ G.S → g.cov k = x → g.cov j = y → ¬ ∀ t, G.h k t = G.h j t := by
      intro k j hk hj ck cj hh
      refine hns (hal.same fun t => ?_)
      have w1 := w hk ck
      have w2 := w hj cj
      rw [C.line _ w1.1.left k hk w1.own, C.line _ w2.1.left j hj w2.own]
      exact hh t
    have hmeet : ∃ k j, k ∈ G.S ∧ j ∈ G.S ∧ g.cov k = x ∧ g.cov j = y ∧ G.rp j = G.rp k ∧ (¬ ∀ t, G.h k t = G.h j t) ∧ (k ≠ g.lst x ∨ j ≠ g.lst y) := by
      unfold Adj Misses at hadj
      rw [not_and_or] at hadj
      push Not at hadj
      rcases hadj with ⟨k, m, hk, ck, cm, j, hj, he, cj⟩ | ⟨j, n, hj, cj, cn, k, hk, he, ck⟩
      · exact ⟨k, j, hk.left, hj, ck, cj, he, slopes hk.left hj ck cj, Or.inl (hne_last hk ck cm)⟩
      · exact ⟨k, j, hk, hj.left, ck, cj, he.symm, slopes hk hj.left ck cj, Or.inr (hne_last hj cj cn)⟩
    obtain ⟨k, j, hk, hj, ck, cj, he, hsl, hne⟩ := hmeet
    obtain ⟨s, es, is⟩ := h.arenas.seg x lx
    obtain ⟨s', es', is'⟩ := h.arenas.seg y ly
    have hhandle := handle_cross (hc.run x lx) (hc.run y ly) es es' is is' hsl he.symm (w hk ck) (w hj cj) hne
    obtain ⟨st1, x', g1, hsp1, h1⟩ := h.trim hl hh hx hk ck
    have hy1 : y ∈ st1.active := by
      rw [h1.active, List.mem_map]
      exact ⟨y, hy, if_neg hxy.symm⟩
    have cj1 : g1.cov j = y := by rw [h1.keep j hj (by rw [cj]; exact hxy.symm), cj]
    obtain ⟨st2, y', g2, hsp2, h2⟩ := h1.rel.trim hl hh hy1 hj cj1
    rw [h1.lr y ly hxy.symm, he] at hsp2
    have hx1 : x' ∈ st1.active := by
      rw [h1.active, List.mem_map]
      exact ⟨x, hx, if_pos rfl⟩
    have lx1 := (h1.rel.alive x' hx1).1
    have hx'y : x' ≠ y := by
      rcases h1.new with e | e
      · rw [e]; exact hxy
      · omega
    have ly1 : y < st1.arena.length := (h1.rel.alive y hy1).1
    have hold : ∀ v ∈ l₁ ++ l₂, v < st.arena.length ∧ v ≠ x ∧ v ≠ y := by
      intro v hv
      refine ⟨(h.alive v (by rw [hact]; simp only [List.mem_append, List.mem_cons] at hv ⊢; tauto)).1, ?_, ?_⟩
      · rintro rfl
        rcases List.mem_append.1 hv with hv | hv
        · exact hnd'.2.2 v hv v (by simp) rfl
        · exact hnd'.2.1.1 (by simp [hv])
      · rintro rfl
        rcases List.mem_append.1 hv with hv | hv
        · exact hnd'.2.2 v hv v (by simp) rfl
        · exact hnd'.2.1.2.1 hv
    have mx : ∀ z ∈ G.S, g2.cov z = x' → g.cov z = x := fun z hz e => h1.mx z hz (h2.mr x' lx1 hx'y z hz e)
    have my : ∀ z ∈ G.S, g2.cov z = y' → g.cov z = y := fun z hz e => h1.mr y ly hxy.symm z hz (h2.mx z hz e)
    have lastx : g2.lst x' = k := by rw [h2.lr x' lx1 hx'y, h1.last]
    have hc2 := h2.rel.arenas.covers
    have own_x : ∀ z ∈ G.S, g.cov z = x → C.own z = C.own k := fun z hz e => (w hz e).own.symm.trans (w hk ck).own
    have own_y : ∀ z ∈ G.S, g.cov z = y → C.own z = C.own j := fun z hz e => (w hz e).own.symm.trans (w hj cj).own
    have past : ∀ {p q v : ℕ}, C.Joint p q → g2.cov q = v → p ≠ g2.lst v := by
      intro p q v hp e1 e2
      have := hc2.within q hp.right
      rw [e1, ← e2] at this
      have := this.2.le
      have := hp.lt
      linarith
    refine ⟨1, _, _, st1, x', st2, y', g2, hhandle, by norm_num, hsp1, hsp2, h2.rel, ?_, ?_, ⟨?_, ?_⟩, fun p q hp e => h1.joint p q hp (h2.joint p q hp e), mx, my, ?_, ?_, ?_, ?_, ?_, ?_⟩
    · exact fun p q hp e z hz hr => hs p q hp (h1.joint p q hp (h2.joint p q hp e)) z hz hr
    · rw [h2.active, h1.active, hact, List.map_map]
      have key : ∀ l : List ℕ, (∀ v ∈ l, v ≠ x ∧ v ≠ y) → l.map ((fun z => if z = y then y' else z) ∘ (fun z => if z = x then x' else z)) = l := by
        intro l hl
        refine (List.map_congr_left (g := id) ?_).trans (List.map_id l)
        intro v hv
        obtain ⟨h2, h3⟩ := hl v hv
        simp [h2, h3]
      rw [List.map_append, List.map_cons, List.map_cons, key l₁, key l₂]
      · simp [hxy.symm, hx'y]
      · exact fun v hv => (hold v (by simp [hv])).2
      · exact fun v hv => (hold v (by simp [hv])).2
    · intro p q hp e1 e2 z hz hr e3
      have := lines_once (C := C) hk hj hsl he hp.left hz (own_x p hp.left (mx p hp.left e1)) (own_y z hz (my z hz e3)) hr
      exact past hp e2 (this.1.trans lastx.symm)
    · intro p q hp e1 e2 z hz hr e3
      have := lines_once (C := C) hk hj hsl he hz hp.left (own_x z hz (mx z hz e3)) (own_y p hp.left (my p hp.left e1)) hr.symm
      exact past hp e2 (this.2.trans h2.last.symm)
    · intro v hv z hz e
      obtain ⟨v1, v2, v3⟩ := hold v hv
      exact h1.mr v v1 v2 z hz (h2.mr v (lt_of_lt_of_le v1 h1.le) v3 z hz e)
    · rw [h2.fr x' lx1 hx'y, h1.fx]
    · rw [h2.fx, h1.fr y ly hxy.symm]
    · intro v hv
      obtain ⟨v1, v2, v3⟩ := hold v hv
      rw [h2.fr v (lt_of_lt_of_le v1 h1.le) v3, h1.fr v v1 v2]
    · intro v hv
      obtain ⟨v1, v2, v3⟩ := hold v hv
      rw [h2.lr v (lt_of_lt_of_le v1 h1.le) v3, h1.lr v v1 v2]
    · have e1 := h1.size
      have e2 := h2.size
      omega

end Cut

end Idc
