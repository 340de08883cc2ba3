import Verif.Props.TidyEvents
/-!
# The sweep over a net, for C76
-/

namespace Idc

open Net

variable {G : Net}

/-! ### Packets -/

/-- The packet of a segment. -/
def dat (arena : Arena ℝ) (i : Nat) : SegmentPacket := match arena[i]? with
  | some s => s.data
  | none => SegmentPacket.new 0 .normal 0

theorem dat_of {arena : Arena ℝ} {i : Nat} {s : BoolSegment ℝ} (h : arena[i]? = some s) : dat arena i = s.data := by
  unfold dat; rw [h]

/-- An arena with one packet replaced. -/
def putPacket (arena : Arena ℝ) (i : Nat) (p : SegmentPacket) : Arena ℝ := match arena[i]? with
  | some s => arena.set i { s with data := p }
  | none => arena

theorem setPacket_put {arena : Arena ℝ} {i : Nat} (h : i < arena.length) (p : SegmentPacket) : arena.setPacket i p = .ok (putPacket arena i p) := by
  unfold Arena.setPacket putPacket index
  rw [List.getElem?_eq_getElem h]
  rfl

theorem put_length (arena : Arena ℝ) (i : Nat) (p : SegmentPacket) : (putPacket arena i p).length = arena.length := by
  unfold putPacket
  split <;> simp

theorem put_get {arena : Arena ℝ} {i : Nat} (p : SegmentPacket) {j : Nat} : (putPacket arena i p)[j]? =
    (arena[j]?).map fun s => if j = i then { s with data := p } else s := by
  unfold putPacket
  split
  · rename_i s hs
    rw [List.getElem?_set]
    by_cases h : i = j
    · subst h
      rw [if_pos rfl, if_pos (lt_of_getElem? hs), hs]
      simp
    · rw [if_neg h]
      have : ¬ j = i := fun e => h e.symm
      simp [this]
  · rename_i hs
    by_cases h : j = i
    · subst h; rw [hs]; rfl
    · simp [h]

theorem dat_put {arena : Arena ℝ} {i : Nat} (h : i < arena.length) (p : SegmentPacket) (j : Nat) :
    dat (putPacket arena i p) j = if j = i then p else dat arena j := by
  unfold dat
  rw [put_get]
  by_cases e : j = i
  · subst e
    rw [List.getElem?_eq_getElem h]
    simp
  · simp only [e, if_false]
    cases arena[j]? <;> rfl

theorem Net.Has.put {arena : Arena ℝ} (h : G.Has arena) (i : Nat) (p : SegmentPacket) : G.Has (putPacket arena i p) where
  length := by rw [put_length]; exact h.length
  seg j hj := by
    obtain ⟨s, hs, is⟩ := h.seg j hj
    rw [put_get, hs]
    refine ⟨_, rfl, ?_⟩
    split
    · exact ⟨is.left, is.right, is.index, is.order⟩
    · exact is

/-! ### Flags -/

/-- Flip one flag. -/
def toggle (l : List Bool) (p : Nat) : List Bool := l.set p (!l.getD p false)

theorem toggle_length (l : List Bool) (p : Nat) : (toggle l p).length = l.length := by simp [toggle]

theorem toggle_toggle {l : List Bool} {p : Nat} (h : p < l.length) : toggle (toggle l p) p = l := by
  unfold toggle
  rw [List.set_set]
  have : (l.set p (!l.getD p false)).getD p false = !l.getD p false := by
    rw [List.getD_eq_getElem?_getD, List.getElem?_set_self h]; rfl
  rw [this, Bool.not_not, List.getD_eq_getElem?_getD, List.getElem?_eq_getElem h]
  exact List.set_getElem_self h

/-- The flags above a stack of segments. -/
def above (G : Net) (l : List Nat) (acc : List Bool) : List Bool := l.foldl (fun acc i => toggle acc (G.poly i)) acc

theorem above_length (l : List Nat) : ∀ acc : List Bool, (above G l acc).length = acc.length := by
  induction l with
  | nil => intro acc; rfl
  | cons i l ih => intro acc; unfold above at *; rw [List.foldl_cons, ih, toggle_length]

theorem above_append (l l' : List Nat) (acc : List Bool) : above G (l ++ l') acc = above G l' (above G l acc) := List.foldl_append

/-- No polygon at all. -/
def noFlags (G : Net) : List Bool := List.replicate G.n false

/-- The stack of segments has the right flags. -/
def FacesOk (G : Net) (arena : Arena ℝ) : List Bool → List Nat → Prop
  | _, [] => True
  | acc, i :: l => (dat arena i).right_faces_polygons = acc ∧ FacesOk G arena (toggle acc (G.poly i)) l

theorem FacesOk.append {arena : Arena ℝ} : ∀ {l l' : List Nat} {acc : List Bool},
    FacesOk G arena acc (l ++ l') ↔ FacesOk G arena acc l ∧ FacesOk G arena (above G l acc) l'
  | [], l', acc => by simp [FacesOk, above]
  | i :: l, l', acc => by
    rw [List.cons_append, FacesOk, FacesOk, FacesOk.append, and_assoc]
    rfl

theorem FacesOk.congr {arena arena' : Arena ℝ} : ∀ {l : List Nat} {acc : List Bool}, (∀ i ∈ l, dat arena' i = dat arena i) →
    FacesOk G arena acc l → FacesOk G arena' acc l
  | [], _, _, _ => trivial
  | i :: l, acc, h, hf => by
    refine ⟨by rw [h i (by simp)]; exact hf.1, FacesOk.congr (fun j hj => h j (by simp [hj])) hf.2⟩

/-- What the sweep writes into a packet. -/
structure Started (G : Net) (p : SegmentPacket) (i : Nat) : Prop where
  len : p.right_faces_polygons.length = G.n
  left : p.left_faces_polygons = toggle p.right_faces_polygons (G.poly i)
  up : p.up_faces_outwards = p.right_faces_polygons.getD (G.poly i) false
  type : p.edge_type = .normal
  inres : p.is_in_result = true

/-- What the sweep leaves alone. -/
structure Kept (G : Net) (p : SegmentPacket) (i : Nat) : Prop where
  polyi : p.polygon_index = G.poly i
  mode : p.mode ≠ .removeEdges
  lproc : p.left_processed = false
  rproc : p.right_processed = false
  lid : p.left_contour_id = none
  rid : p.right_contour_id = none

/-- The packet of a segment that has not been reached. -/
structure Fresh' (G : Net) (p : SegmentPacket) : Prop where
  left : p.left_faces_polygons = noFlags G
  right : p.right_faces_polygons = noFlags G
  type : p.edge_type = .normal
  below : p.below_in_result = none

/-- The flags above the lowest segments, read off the last one. -/
theorem last_left {arena : Arena ℝ} {l : List Nat} (hf : FacesOk G arena (noFlags G) l) (hs : ∀ i ∈ l, Started G (dat arena i) i) :
    ∀ k, l.getLast? = some k → (dat arena k).left_faces_polygons = above G l (noFlags G) := by
  intro k hk
  obtain ⟨l', rfl⟩ : ∃ l', l = l' ++ [k] := by
    rw [List.getLast?_eq_some_iff] at hk
    exact hk
  rw [FacesOk.append] at hf
  have := hf.2.1
  rw [(hs k (by simp)).left, this, above_append]
  rfl

/-! ### One left endpoint -/

theorem zipWith_or_false : ∀ (a : List Bool) (n : Nat), a.length = n → List.zipWith (· || ·) (List.replicate n false) a = a
  | [], 0, _ => rfl
  | x :: a, n + 1, h => by
    rw [List.replicate_succ, List.zipWith_cons_cons, zipWith_or_false a n (by simpa using h)]
    simp
  | [], n + 1, h => by simp at h
  | x :: a, 0, h => by simp at h

theorem bvUnion_clear {a b : List Bool} (h : a.length = b.length) : bvUnion (bvClear a) b = .ok b := by
  unfold bvUnion bvClear
  rw [if_pos (by simpa using h)]
  congr 1
  rw [List.map_const', zipWith_or_false _ _ h.symm]

/-- The packet written for a segment, given the one below. -/
theorem facing_spec {p : SegmentPacket} {i : Nat} (hi : i < G.N) (hk : Kept G p i) (hfr : Fresh' G p) (below : Option (BoolSegment ℝ)) (acc : List Bool)
    (hb : match below with
      | none => acc = noFlags G
      | some s => s.data.polygon_index = G.poly s.index ∧ Started G s.data s.index ∧ s.data.left_faces_polygons = acc ∧ s.vertical = false) :
    ∃ p', facingPacket p below = .ok p' ∧ p'.right_faces_polygons = acc ∧ acc.length = G.n ∧
      Started G { p' with is_in_result := p'.isInResult } i ∧ Kept G p' i ∧ p'.below_in_result = below.map fun s => s.index := by
  have hpn : G.poly i < G.n := G.poly_lt i hi
  have nl : (noFlags G).length = G.n := by simp [noFlags]
  have nb : bvClear (noFlags G) = noFlags G := by simp [bvClear, noFlags]
  have inres : ∀ q : SegmentPacket, q.edge_type = .normal → q.mode ≠ .removeEdges → q.isInResult = true := by
    intro q h1 h2
    unfold SegmentPacket.isInResult
    rw [if_neg (by rw [h1]; decide), if_neg h2]
  cases below with
  | none =>
    obtain rfl : acc = noFlags G := hb
    unfold facingPacket
    dsimp only
    unfold bvSet
    rw [hk.polyi, hfr.left, hfr.right, nb, if_pos (by rw [nl]; exact hpn)]
    simp only [Res.bind_ok, Res.pure_eq]
    have g0 : (noFlags G).getD (G.poly i) false = false := by
      rw [List.getD_eq_getElem?_getD, noFlags, List.getElem?_replicate, if_pos hpn]; rfl
    refine ⟨_, rfl, rfl, nl, ?_, ?_, hfr.below⟩
    · refine ⟨nl, ?_, g0.symm, hfr.type, inres _ hfr.type hk.mode⟩
      show (noFlags G).set (G.poly i) true = _
      unfold toggle
      rw [g0]; rfl
    · exact ⟨rfl, hk.mode, hk.lproc, hk.rproc, hk.lid, hk.rid⟩
  | some s =>
    obtain ⟨hpi, hst, hl, hv⟩ := hb
    have hlen : s.data.left_faces_polygons.length = G.n := by rw [hst.left, toggle_length, hst.len]
    have hacc : acc.length = G.n := by rw [← hl]; exact hlen
    have hup : ∃ out, facingUp p s = .ok (acc.getD (G.poly i) false, out) := by
      unfold facingUp
      dsimp only
      rw [hk.polyi, hpi]
      split
      · rename_i he
        refine ⟨s.data.is_outside_other_poly, ?_⟩
        rw [hst.up, ← hl, hst.left, he]
        congr 2
        have hs : ∀ (l : List Bool) (q : Nat) (b : Bool), q < l.length → (l.set q b).getD q false = b := by
          intro l q b h
          rw [List.getD_eq_getElem?_getD, List.getElem?_set_self h]; rfl
        unfold toggle
        rw [hs _ _ _ (by rw [hst.len, ← he]; exact hpn)]
      · unfold bvGet index
        rw [hl, List.getElem?_eq_getElem (by rw [hacc]; exact hpn)]
        refine ⟨if s.vertical then !s.data.up_faces_outwards else s.data.up_faces_outwards, ?_⟩
        simp only [Res.bind_ok, Res.pure_eq]
        rw [List.getD_eq_getElem?_getD, List.getElem?_eq_getElem (by rw [hacc]; exact hpn)]
        rfl
    obtain ⟨out, hup⟩ := hup
    unfold facingPacket
    dsimp only
    rw [hup]
    simp only [Res.bind_ok]
    rw [hfr.left, hfr.right, hst.type, if_neg (by decide), hl, bvUnion_clear (by rw [nl, hacc])]
    simp only [Res.bind_ok]
    unfold bvSet
    rw [hk.polyi, if_pos (by rw [hacc]; exact hpn)]
    simp only [Res.bind_ok, Res.pure_eq]
    refine ⟨_, rfl, rfl, hacc, ?_, ?_, ?_⟩
    · exact ⟨hacc, rfl, rfl, hfr.type, inres _ hfr.type hk.mode⟩
    · exact ⟨rfl, hk.mode, hk.lproc, hk.rproc, hk.lid, hk.rid⟩
    · show (if (s.vertical || decide (EdgeType.normal = EdgeType.nonContributing)) = true then _ else _) = _
      rw [hv]
      rfl

theorem prevAt_len (l₁ l₂ : List Nat) : prevAt (l₁ ++ l₂) l₁.length = .ok l₁.getLast? := by
  unfold prevAt
  rcases List.eq_nil_or_concat l₁ with rfl | ⟨l, k, rfl⟩
  · rfl
  · rw [List.concat_eq_append, if_pos (by simp)]
    unfold index
    have : (l ++ [k] ++ l₂)[(l ++ [k]).length - 1]? = some k := by simp
    rw [this]
    simp

theorem insertIdx_len (l₁ l₂ : List Nat) (x : Nat) : (l₁ ++ l₂).insertIdx l₁.length x = l₁ ++ x :: l₂ := by
  induction l₁ with
  | nil => rfl
  | cons a l ih => simp only [List.cons_append, List.length_cons, List.insertIdx_succ_cons, ih]

theorem eraseIdx_len (l₁ l₂ : List Nat) (x : Nat) : (l₁ ++ x :: l₂).eraseIdx l₁.length = l₁ ++ l₂ := by
  induction l₁ with
  | nil => rfl
  | cons a l ih => simp only [List.cons_append, List.length_cons, List.eraseIdx_cons_succ, ih]

/-- The segments are on the sweep line at `t`, bottom to top. -/
structure Stack (G : Net) (t : ℝ) (l : List Nat) : Prop where
  alive : ∀ i ∈ l, i < G.N ∧ G.a i < t ∧ t < G.b i
  sorted : l.Pairwise fun i j => G.h i t < G.h j t

theorem Stack.search {t : ℝ} {l₁ l₂ : List Nat} {i : Nat} (h : Stack G t (l₁ ++ i :: l₂)) {arena : Arena ℝ} (ha : G.Has arena) :
    (∀ y ∈ l₁, arena.segCmp y i = .ok .lt) ∧ (∀ y ∈ l₂, arena.segCmp y i = .ok .gt) := by
  obtain ⟨hi, hi1, hi2⟩ := h.alive i (by simp)
  have hs := List.pairwise_append.1 h.sorted
  constructor
  · intro y hy
    obtain ⟨h1, h2, h3⟩ := h.alive y (by simp [hy])
    exact (segCmp_lt ha h1 hi h2 h3 hi1 hi2 (hs.2.2 y hy i (by simp))).1
  · intro y hy
    obtain ⟨h1, h2, h3⟩ := h.alive y (by simp [hy])
    exact (segCmp_lt ha hi h1 hi1 hi2 h2 h3 ((List.pairwise_cons.1 hs.2.1).1 y hy)).2

theorem handle_pair {arena : Arena ℝ} (ha : G.Has arena) {x y : Option Nat} (hx : ∀ i, x = some i → i < G.N) (hy : ∀ i, y = some i → i < G.N)
    (hne : ∀ i j, x = some i → y = some j → i ≠ j) : ∃ m, m < 2 ∧ handleIntersections arena x y = .ok (arena, m, none, none) := by
  cases x with
  | none => exact ⟨0, by norm_num, by unfold handleIntersections; cases y <;> rfl⟩
  | some i =>
    cases y with
    | none => exact ⟨0, by norm_num, rfl⟩
    | some j =>
      obtain ⟨s, hs, is⟩ := ha.seg i (hx i rfl)
      obtain ⟨s', hs', is'⟩ := ha.seg j (hy j rfl)
      exact handle_net (hx i rfl) (hy j rfl) (hne i j rfl rfl) hs hs' is is'

/-- A left endpoint: the segment goes where it belongs, and gets the flags of what is below. -/
theorem sweepLeft_net {lib : Lib} (hl : lib.Lawful) {st : SweepState ℝ} {i : Nat} {l₁ l₂ : List Nat} {t : ℝ} (ha : G.Has st.arena)
    (hact : st.active = l₁ ++ l₂) (hst : Stack G t (l₁ ++ i :: l₂)) (hk : ∀ j < G.N, Kept G (dat st.arena j) j) (hfr : Fresh' G (dat st.arena i))
    (hs : ∀ j ∈ l₁, Started G (dat st.arena j) j) (hf : FacesOk G st.arena (noFlags G) l₁)
    (hv : ∀ k s, l₁.getLast? = some k → st.arena[k]? = some s → s.vertical = false) (np : Nat) :
    ∃ p, sweepLeft lib np st i = .ok { st with arena := putPacket st.arena i p, active := l₁ ++ i :: l₂ } ∧
      Started G p i ∧ Kept G p i ∧ p.right_faces_polygons = above G l₁ (noFlags G) ∧ p.below_in_result = l₁.getLast? := by
  obtain ⟨hi, hi1, hi2⟩ := hst.alive i (by simp)
  obtain ⟨c1, c2⟩ := hst.search ha
  have hin : i < st.arena.length := by rw [ha.length]; exact hi
  have hnd : (l₁ ++ i :: l₂).Nodup := hst.sorted.imp fun {a b} h e => by rw [e] at h; exact lt_irrefl _ h
  obtain ⟨si, hsi, isi⟩ := ha.seg i hi
  -- the segment below
  have hbelow : ∃ below, borrowBelow st.arena i l₁.getLast? = .ok below ∧ below.map (fun s => s.index) = l₁.getLast? ∧
      (match below with
      | none => above G l₁ (noFlags G) = noFlags G
      | some s => s.data.polygon_index = G.poly s.index ∧ Started G s.data s.index ∧ s.data.left_faces_polygons = above G l₁ (noFlags G) ∧
          s.vertical = false) := by
    rcases hlast : l₁.getLast? with _ | k
    · refine ⟨none, rfl, rfl, ?_⟩
      rw [List.getLast?_eq_none_iff] at hlast
      rw [hlast]; rfl
    · have hkl : k ∈ l₁ := List.mem_of_getLast? hlast
      obtain ⟨hkN, _, _⟩ := hst.alive k (by simp [hkl])
      obtain ⟨s, hsk, isk⟩ := ha.seg k hkN
      refine ⟨some s, ?_, by rw [Option.map_some, isk.index], ?_, ?_, ?_, hv k s hlast hsk⟩
      · unfold borrowBelow
        have : k ≠ i := by
          rintro rfl
          exact (List.nodup_append.1 hnd).2.2 k hkl k (by simp) rfl
        dsimp only
        rw [if_neg this]
        unfold index
        rw [hsk]
        rfl
      · rw [isk.index, ← dat_of hsk]; exact (hk k hkN).polyi
      · rw [isk.index, ← dat_of hsk]; exact hs k hkl
      · rw [← dat_of hsk]; exact last_left hf hs k hlast
  obtain ⟨below, hb1, hb2, hb3⟩ := hbelow
  obtain ⟨p', hp', hr, _, hstd, hkp, hbel⟩ := facing_spec hi (dat_of hsi ▸ hk i hi) (dat_of hsi ▸ hfr) below (above G l₁ (noFlags G)) (by
    cases below
    · exact hb3
    · exact hb3)
  refine ⟨{ p' with is_in_result := p'.isInResult }, ?_, hstd, ⟨hkp.polyi, hkp.mode, hkp.lproc, hkp.rproc, hkp.lid, hkp.rid⟩, hr, hbel.trans hb2⟩
  have hup : updatePolygonFacing st.arena i l₁.getLast? = .ok (putPacket st.arena i { p' with is_in_result := p'.isInResult }) := by
    unfold updatePolygonFacing index
    rw [hsi]
    simp only [Res.bind_ok]
    rw [hb1]
    simp only [Res.bind_ok]
    rw [hp']
    simp only [Res.bind_ok]
    exact setPacket_put hin _
  have hins : SweepLine2.insertAndGetNeighbors lib (Arena.segCmp st.arena) i st.active = .ok ((l₁.getLast?, l₂.head?), l₁ ++ i :: l₂) := by
    unfold SweepLine2.insertAndGetNeighbors
    rw [hact, hl.search_missing _ _ _ _ c1 c2]
    simp only [Res.bind_ok]
    rw [if_neg (by decide), insertIdx_len, prevAt_len]
    simp only [Res.bind_ok, Res.pure_eq]
    congr 3
    rw [List.getElem?_append_right (by omega)]
    simp [List.head?_eq_getElem?]
  unfold sweepLeft
  rw [hins]
  simp only [Res.bind_ok]
  rw [hup]
  simp only [Res.bind_ok]
  have ha' := ha.put i { p' with is_in_result := p'.isInResult }
  have hmem1 : ∀ k, l₁.getLast? = some k → k < G.N ∧ k ≠ i := by
    intro k h
    have hkl : k ∈ l₁ := List.mem_of_getLast? h
    refine ⟨(hst.alive k (by simp [hkl])).1, ?_⟩
    rintro rfl
    exact (List.nodup_append.1 hnd).2.2 k hkl k (by simp) rfl
  have hmem2 : ∀ k, l₂.head? = some k → k < G.N ∧ k ≠ i := by
    intro k h
    have hkl : k ∈ l₂ := List.mem_of_head? h
    refine ⟨(hst.alive k (by simp [hkl])).1, ?_⟩
    rintro rfl
    exact (List.nodup_cons.1 (List.nodup_append.1 hnd).2.1).1 hkl
  obtain ⟨m1, hm1, e1⟩ := handle_pair ha' (x := some i) (y := l₂.head?) (fun k h => by cases h; exact hi) (fun k h => (hmem2 k h).1)
    (fun a b h1 h2 => by cases h1; exact (hmem2 b h2).2.symm)
  obtain ⟨m2, hm2, e2⟩ := handle_pair ha' (x := l₁.getLast?) (y := some i) (fun k h => (hmem1 k h).1) (fun k h => by cases h; exact hi)
    (fun a b h1 h2 => by cases h2; exact (hmem1 a h1).2)
  rw [e1]
  simp only [Res.bind_ok, splitIf, splitIfOpt]
  unfold updateAfter
  rw [if_neg (by omega)]
  simp only [Res.bind_ok]
  rw [e2]
  simp only [Res.bind_ok, splitIf, splitIfOpt]
  rw [if_neg (by omega)]
  rfl

/-- A right endpoint: the segment is taken out. -/
theorem sweepRight_net {lib : Lib} (hl : lib.Lawful) {st : SweepState ℝ} {i : Nat} {l₁ l₂ : List Nat} {t : ℝ} (ha : G.Has st.arena)
    (hact : st.active = l₁ ++ i :: l₂) (hst : Stack G t (l₁ ++ i :: l₂)) (np : Nat) :
    sweepRight lib np st i = .ok { st with active := l₁ ++ l₂, swept := st.swept ++ [i] } := by
  obtain ⟨hi, hi1, hi2⟩ := hst.alive i (by simp)
  obtain ⟨c1, c2⟩ := hst.search ha
  have hnd : (l₁ ++ i :: l₂).Nodup := hst.sorted.imp fun {a b} h e => by rw [e] at h; exact lt_irrefl _ h
  have hrem : SweepLine2.removeAndGetNeighbors lib (Arena.segCmp st.arena) i st.active = .ok ((true, l₁.getLast?, l₂.head?), l₁ ++ l₂) := by
    unfold SweepLine2.removeAndGetNeighbors
    rw [hact, hl.search_found _ _ _ _ _ c1 (segCmp_self ha hi) c2]
    simp only [Res.bind_ok]
    rw [if_pos trivial, eraseIdx_len, prevAt_len]
    simp only [Res.bind_ok, Res.pure_eq]
    congr 4
    rw [List.getElem?_append_right (le_refl _)]
    simp [List.head?_eq_getElem?]
  unfold sweepRight
  rw [hrem]
  simp only [Res.bind_ok]
  rw [if_pos trivial]
  rcases h1 : l₂.head? with _ | a
  · rfl
  · rcases h2 : l₁.getLast? with _ | b
    · rfl
    · have hal : a ∈ l₂ := List.mem_of_head? h1
      have hbl : b ∈ l₁ := List.mem_of_getLast? h2
      obtain ⟨m, hm, e⟩ := handle_pair ha (x := some b) (y := some a) (fun k h => by cases h; exact (hst.alive b (by simp [hbl])).1)
        (fun k h => by cases h; exact (hst.alive a (by simp [hal])).1) (fun x y hx hy => by
          cases hx; cases hy
          intro e
          exact (List.nodup_append.1 hnd).2.2 b hbl a (by simp [hal]) e)
      dsimp only
      rw [e]
      simp only [Res.bind_ok, splitIf]
      rfl

end Idc
