import Verif.Props.SuitePolygons
/-!
# C94: the flood fill of three areas in a row
-/

namespace Idc

variable {F : Type} [FloatOps F]

/-- What visiting a neighbour does: it is in this chunk, or it may begin another. -/
def arrive (b : Bool) (n : ℕ) (st : FloodState) : FloodState :=
  if st.seen.contains n then st else if b then { st with seen := n :: st.seen, next := st.next ++ [n] } else { st with seeds := btreeInsert n st.seeds }

/-- The area is in the chunk. -/
def enter (n : ℕ) (d : ℤ) (st : FloodState) : FloodState := { st with chunk := btreeInsert n st.chunk, distance := st.distance.set n d }

/-- Three areas in a row, and from which to which the chunk goes on. -/
structure Row (ctx : RouteCtx F) (p q r s : Bool) : Prop where
  v0 : ∀ d st, st.distance.length = 3 → visitContour ctx d st 0 = .ok (arrive p 1 (enter 0 d st))
  v1 : ∀ d st, st.distance.length = 3 → visitContour ctx d st 1 = .ok (arrive r 2 (arrive q 0 (enter 1 d st)))
  v2 : ∀ d st, st.distance.length = 3 → visitContour ctx d st 2 = .ok (arrive s 1 (enter 2 d st))

theorem chunk_none {ctx : RouteCtx F} {d : ℤ} {k : ℕ} {st : FloodState} (h : st.next = []) : chunkLoop ctx d (k + 1) st = .ok st := by
  rw [chunkLoop, h]

theorem chunk_one {ctx : RouteCtx F} {d : ℤ} {k v : ℕ} {st st' : FloodState} (h : st.next = [v]) (hv : visitContour ctx d { st with next := [] } v = .ok st') :
    chunkLoop ctx d (k + 1) st = chunkLoop ctx d k st' := by
  rw [chunkLoop, h]
  simp only [forEach, hv, Res.bind_ok]

theorem chunk_two {ctx : RouteCtx F} {d : ℤ} {k v w : ℕ} {st st' st'' : FloodState} (h : st.next = [v, w]) (hv : visitContour ctx d { st with next := [] } v = .ok st')
    (hw : visitContour ctx d st' w = .ok st'') : chunkLoop ctx d (k + 1) st = chunkLoop ctx d k st'' := by
  rw [chunkLoop, h]
  simp only [forEach, hv, hw, Res.bind_ok]

theorem flood_none {ctx : RouteCtx F} {d : ℤ} {i k : ℕ} {st : FloodState} {ch : List (List ℕ)} (h : st.seeds = []) : floodLoop ctx i (k + 1) d st ch = .ok (st, ch) := by
  rw [floodLoop, h]

theorem flood_one {ctx : RouteCtx F} {d : ℤ} {i k v : ℕ} {l : List ℕ} {st st' : FloodState} {ch : List (List ℕ)} (h : st.seeds = v :: l) (hs : st.seen.contains v = false)
    (hc : chunkLoop ctx d i { st with seeds := l, seen := v :: st.seen, chunk := [], next := [v] } = .ok st') :
    floodLoop ctx i (k + 1) d st ch = floodLoop ctx i k (d + 1) st' (ch ++ [st'.chunk]) := by
  rw [floodLoop, h]
  simp only [hs, Bool.false_eq_true, if_false, hc, Res.bind_ok]

section

variable {ctx : RouteCtx F} {p q r s : Bool}

theorem Row.left (h : Row ctx p q r s) (k : ℕ) : ∃ st, floodLoop ctx (k + 10) (k + 10) 1 ⟨[0], [], [], [], [0, 0, 0]⟩ [] =
    .ok (st, if p then (if r then [[0, 1, 2]] else [[0, 1], [2]]) else (if r then [[0], [1, 2]] else [[0], [1], [2]])) ∧
    st.distance = if p then (if r then [1, 1, 1] else [1, 1, 2]) else (if r then [1, 2, 2] else [1, 2, 3]) := by
  obtain ⟨v0, v1, v2⟩ := h
  cases p <;> cases r
  · cases q <;> cases s <;> exact ⟨_, (flood_one rfl rfl ((chunk_one rfl (v0 _ _ rfl)).trans (chunk_none rfl))).trans ((flood_one rfl rfl ((chunk_one rfl (v1 _ _ rfl)).trans (chunk_none rfl))).trans ((flood_one rfl rfl ((chunk_one rfl (v2 _ _ rfl)).trans (chunk_none rfl))).trans (flood_none rfl))), rfl⟩
  · cases q <;> cases s <;> exact ⟨_, (flood_one rfl rfl ((chunk_one rfl (v0 _ _ rfl)).trans (chunk_none rfl))).trans ((flood_one rfl rfl ((chunk_one rfl (v1 _ _ rfl)).trans ((chunk_one rfl (v2 _ _ rfl)).trans (chunk_none rfl)))).trans (flood_none rfl)), rfl⟩
  · cases q <;> cases s <;> exact ⟨_, (flood_one rfl rfl ((chunk_one rfl (v0 _ _ rfl)).trans ((chunk_one rfl (v1 _ _ rfl)).trans (chunk_none rfl)))).trans ((flood_one rfl rfl ((chunk_one rfl (v2 _ _ rfl)).trans (chunk_none rfl))).trans (flood_none rfl)), rfl⟩
  · cases q <;> cases s <;> exact ⟨_, (flood_one rfl rfl ((chunk_one rfl (v0 _ _ rfl)).trans ((chunk_one rfl (v1 _ _ rfl)).trans ((chunk_one rfl (v2 _ _ rfl)).trans (chunk_none rfl))))).trans (flood_none rfl), rfl⟩

theorem Row.middle (h : Row ctx p q r s) (k : ℕ) : ∃ st, floodLoop ctx (k + 10) (k + 10) 1 ⟨[1], [], [], [], [0, 0, 0]⟩ [] =
    .ok (st, if q then (if r then [[0, 1, 2]] else [[0, 1], [2]]) else (if r then [[1, 2], [0]] else [[1], [0], [2]])) ∧
    st.distance = if q then (if r then [1, 1, 1] else [1, 1, 2]) else (if r then [2, 1, 1] else [2, 1, 3]) := by
  obtain ⟨v0, v1, v2⟩ := h
  cases q <;> cases r
  · cases p <;> cases s <;> exact ⟨_, (flood_one rfl rfl ((chunk_one rfl (v1 _ _ rfl)).trans (chunk_none rfl))).trans ((flood_one rfl rfl ((chunk_one rfl (v0 _ _ rfl)).trans (chunk_none rfl))).trans ((flood_one rfl rfl ((chunk_one rfl (v2 _ _ rfl)).trans (chunk_none rfl))).trans (flood_none rfl))), rfl⟩
  · cases p <;> cases s <;> exact ⟨_, (flood_one rfl rfl ((chunk_one rfl (v1 _ _ rfl)).trans ((chunk_one rfl (v2 _ _ rfl)).trans (chunk_none rfl)))).trans ((flood_one rfl rfl ((chunk_one rfl (v0 _ _ rfl)).trans (chunk_none rfl))).trans (flood_none rfl)), rfl⟩
  · cases p <;> cases s <;> exact ⟨_, (flood_one rfl rfl ((chunk_one rfl (v1 _ _ rfl)).trans ((chunk_one rfl (v0 _ _ rfl)).trans (chunk_none rfl)))).trans ((flood_one rfl rfl ((chunk_one rfl (v2 _ _ rfl)).trans (chunk_none rfl))).trans (flood_none rfl)), rfl⟩
  · cases p <;> cases s <;> exact ⟨_, (flood_one rfl rfl ((chunk_one rfl (v1 _ _ rfl)).trans ((chunk_two rfl (v0 _ _ rfl) (v2 _ _ rfl)).trans (chunk_none rfl)))).trans (flood_none rfl), rfl⟩

theorem Row.right (h : Row ctx p q r s) (k : ℕ) : ∃ st, floodLoop ctx (k + 10) (k + 10) 1 ⟨[2], [], [], [], [0, 0, 0]⟩ [] =
    .ok (st, if s then (if q then [[0, 1, 2]] else [[1, 2], [0]]) else (if q then [[2], [0, 1]] else [[2], [1], [0]])) ∧
    st.distance = if s then (if q then [1, 1, 1] else [2, 1, 1]) else (if q then [2, 2, 1] else [3, 2, 1]) := by
  obtain ⟨v0, v1, v2⟩ := h
  cases s <;> cases q
  · cases p <;> cases r <;> exact ⟨_, (flood_one rfl rfl ((chunk_one rfl (v2 _ _ rfl)).trans (chunk_none rfl))).trans ((flood_one rfl rfl ((chunk_one rfl (v1 _ _ rfl)).trans (chunk_none rfl))).trans ((flood_one rfl rfl ((chunk_one rfl (v0 _ _ rfl)).trans (chunk_none rfl))).trans (flood_none rfl))), rfl⟩
  · cases p <;> cases r <;> exact ⟨_, (flood_one rfl rfl ((chunk_one rfl (v2 _ _ rfl)).trans (chunk_none rfl))).trans ((flood_one rfl rfl ((chunk_one rfl (v1 _ _ rfl)).trans ((chunk_one rfl (v0 _ _ rfl)).trans (chunk_none rfl)))).trans (flood_none rfl)), rfl⟩
  · cases p <;> cases r <;> exact ⟨_, (flood_one rfl rfl ((chunk_one rfl (v2 _ _ rfl)).trans ((chunk_one rfl (v1 _ _ rfl)).trans (chunk_none rfl)))).trans ((flood_one rfl rfl ((chunk_one rfl (v0 _ _ rfl)).trans (chunk_none rfl))).trans (flood_none rfl)), rfl⟩
  · cases p <;> cases r <;> exact ⟨_, (flood_one rfl rfl ((chunk_one rfl (v2 _ _ rfl)).trans ((chunk_one rfl (v1 _ _ rfl)).trans ((chunk_one rfl (v0 _ _ rfl)).trans (chunk_none rfl))))).trans (flood_none rfl), rfl⟩

theorem Row.nowhere (k : ℕ) : floodLoop ctx (k + 10) (k + 10) 1 ⟨[], [], [], [], [0, 0, 0]⟩ [] = .ok (⟨[], [], [], [], [0, 0, 0]⟩, []) := flood_none rfl

end

end Idc
