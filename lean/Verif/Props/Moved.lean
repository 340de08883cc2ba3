import Verif.Spec.Moved
import Verif.Props.Result
/-!
# C87: moving and scaling
-/

namespace Idc

variable {k : ℝ} {v : Pt ℝ} {polys : List (Polygon ℝ × PolygonMode)}

/-- An edge, moved. -/
def moveEdge (k : ℝ) (v : Pt ℝ) (e : Pt ℝ × Pt ℝ) : Pt ℝ × Pt ℝ := (movePt k v e.1, movePt k v e.2)

theorem move_inj (hk : 0 < k) : Function.Injective (movePt k v) := by
  intro p q h
  have hx := congrArg Pt.x h
  have hy := congrArg Pt.y h
  simp only [movePt] at hx hy
  exact pt_ext (mul_left_cancel₀ hk.ne' (by linarith)) (mul_left_cancel₀ hk.ne' (by linarith))

theorem move_surj (hk : 0 < k) (q : Pt ℝ) : ∃ p, movePt k v p = q := by
  refine ⟨⟨(q.x - v.x) / k, (q.y - v.y) / k⟩, ?_⟩
  unfold movePt
  refine pt_ext ?_ ?_ <;> dsimp only <;> field_simp <;> ring

theorem moveEdge_inj (hk : 0 < k) : Function.Injective (moveEdge k v) := by
  rintro ⟨a, b⟩ ⟨c, d⟩ h
  have h1 : movePt k v a = movePt k v c := congrArg Prod.fst h
  have h2 : movePt k v b = movePt k v d := congrArg Prod.snd h
  rw [move_inj hk h1, move_inj hk h2]

theorem moveEdge_surj (hk : 0 < k) (d : Pt ℝ × Pt ℝ) : ∃ e, moveEdge k v e = d := by
  obtain ⟨p, hp⟩ := move_surj (v := v) hk d.1
  obtain ⟨q, hq⟩ := move_surj (v := v) hk d.2
  exact ⟨(p, q), Prod.ext hp hq⟩

theorem closedEdges_move (ps : List (Pt ℝ)) : closedEdges (ps.map (movePt k v)) = (closedEdges ps).map (moveEdge k v) := by
  unfold closedEdges moveEdge
  rw [← List.map_rotate, List.zip_map]
  rfl

theorem edges_move (p : Polygon ℝ) : (movePolygon k v p).edges = p.edges.map (moveEdge k v) := by
  unfold Polygon.edges movePolygon moveContour
  rw [List.flatMap_map, List.map_flatMap]
  congr 1
  funext c
  exact closedEdges_move _

theorem allEdges_move : allEdges (moveAll k v polys) = (allEdges polys).map (moveEdge k v) := by
  unfold allEdges moveAll
  rw [List.flatMap_map, List.map_flatMap]
  congr 1
  funext c
  exact edges_move _

theorem allCorners_move : allCorners (moveAll k v polys) = (allCorners polys).map (movePt k v) := by
  unfold allCorners moveAll movePolygon moveContour
  rw [List.flatMap_map, List.map_flatMap]
  congr 1
  funext c
  dsimp only
  rw [List.flatMap_map, List.map_flatMap]

theorem kept_move : keptPolygons (moveAll k v polys) = moveAll k v (keptPolygons polys) := by
  unfold keptPolygons moveAll
  rw [List.filter_map]
  rfl

theorem swap_move (d : Pt ℝ × Pt ℝ) : (moveEdge k v d).swap = moveEdge k v d.swap := rfl

theorem mem_move (hk : 0 < k) {l : List (Pt ℝ × Pt ℝ)} {d : Pt ℝ × Pt ℝ} : moveEdge k v d ∈ l.map (moveEdge k v) ↔ d ∈ l :=
  List.mem_map_of_injective (moveEdge_inj hk)

theorem drawn_move (hk : 0 < k) {d : Pt ℝ × Pt ℝ} : Drawn (moveAll k v polys) (moveEdge k v d) ↔ Drawn polys d := by
  unfold Drawn
  rw [allEdges_move, swap_move, mem_move hk, mem_move hk]
  exact and_congr_left fun _ => not_congr ⟨fun h => move_inj hk h, fun h => by unfold moveEdge; rw [h]⟩

theorem leftOf_move (hk : 0 < k) {p q : Pt ℝ} : LeftOf (movePt k v p) (movePt k v q) ↔ LeftOf p q := by
  unfold LeftOf movePt
  dsimp only
  rw [add_lt_add_iff_right, add_lt_add_iff_right, add_left_inj, mul_lt_mul_iff_right₀ hk, mul_lt_mul_iff_right₀ hk, mul_right_inj' hk.ne']

theorem cross2_move (d e : Pt ℝ × Pt ℝ) : cross2 (moveEdge k v d) (moveEdge k v e) = k ^ 2 * cross2 d e := by
  unfold cross2 moveEdge movePt
  ring

theorem cross2_pos_move (hk : 0 < k) {d e : Pt ℝ × Pt ℝ} : 0 < cross2 (moveEdge k v d) (moveEdge k v e) ↔ 0 < cross2 d e := by
  rw [cross2_move]
  exact mul_pos_iff_of_pos_left (by positivity)

theorem cross2_nonneg_move (hk : 0 < k) {d e : Pt ℝ × Pt ℝ} : 0 ≤ cross2 (moveEdge k v d) (moveEdge k v e) ↔ 0 ≤ cross2 d e := by
  rw [cross2_move]
  exact mul_nonneg_iff_of_pos_left (by positivity)

theorem turns_move (hk : 0 < k) {a b c : Pt ℝ × Pt ℝ} : TurnsThrough (moveEdge k v a) (moveEdge k v b) (moveEdge k v c) ↔ TurnsThrough a b c := by
  unfold TurnsThrough
  simp only [cross2_pos_move hk]

theorem leftPoint_move (d : Pt ℝ × Pt ℝ) (δ : ℝ) : leftPoint (moveEdge k v d) δ = movePt k v (leftPoint d δ) := by
  unfold leftPoint moveEdge movePt
  refine pt_ext ?_ ?_ <;> dsimp only <;> ring

theorem min_move (hk : 0 < k) (a b c : ℝ) : Min.min (k * a + c) (k * b + c) = k * Min.min a b + c := by
  rw [min_add_add_right, mul_min_of_nonneg _ _ hk.le]

theorem max_move (hk : 0 < k) (a b c : ℝ) : Max.max (k * a + c) (k * b + c) = k * Max.max a b + c := by
  rw [max_add_add_right, mul_max_of_nonneg _ _ hk.le]

theorem heightAt_move (hk : 0 < k) (e : Pt ℝ × Pt ℝ) (x : ℝ) : heightAt (moveEdge k v e) (k * x + v.x) = k * heightAt e x + v.y := by
  unfold heightAt moveEdge movePt
  dsimp only
  rw [show k * e.2.y + v.y - (k * e.1.y + v.y) = k * (e.2.y - e.1.y) by ring, show k * e.2.x + v.x - (k * e.1.x + v.x) = k * (e.2.x - e.1.x) by ring,
    mul_div_mul_left _ _ hk.ne']
  ring

theorem over_move (hk : 0 < k) {e : Pt ℝ × Pt ℝ} {x : ℝ} : Over (moveEdge k v e) (k * x + v.x) ↔ Over e x := by
  unfold Over moveEdge movePt
  dsimp only
  rw [min_move hk, max_move hk, add_le_add_iff_right, add_le_add_iff_right, mul_le_mul_iff_right₀ hk, mul_le_mul_iff_right₀ hk]

theorem crosses_move (hk : 0 < k) {q : Pt ℝ} {e : Pt ℝ × Pt ℝ} : CrossesBelow (movePt k v q) (moveEdge k v e) ↔ CrossesBelow q e := by
  have h := heightAt_move (v := v) hk e q.x
  unfold heightAt at h
  unfold CrossesBelow
  rw [show (movePt k v q).x = k * q.x + v.x from rfl, h]
  unfold moveEdge movePt
  dsimp only
  rw [min_move hk, max_move hk, add_le_add_iff_right, add_lt_add_iff_right, add_lt_add_iff_right, mul_le_mul_iff_right₀ hk, mul_lt_mul_iff_right₀ hk, mul_lt_mul_iff_right₀ hk]

open Classical in
theorem evenOdd_move (hk : 0 < k) (p : Polygon ℝ) (q : Pt ℝ) : (movePolygon k v p).evenOdd (movePt k v q) ↔ p.evenOdd q := by
  unfold Polygon.evenOdd
  rw [edges_move, List.countP_map]
  have : (fun e => decide (CrossesBelow (movePt k v q) e)) ∘ moveEdge k v = fun e => decide (CrossesBelow q e) := by
    funext e
    simp only [Function.comp, crosses_move hk]
  rw [this]

theorem get_move {j : ℕ} {p : Polygon ℝ × PolygonMode} : (moveAll k v polys)[j]? = some p ↔ ∃ q, polys[j]? = some q ∧ (movePolygon k v q.1, q.2) = p := by
  unfold moveAll
  rw [List.getElem?_map, Option.map_eq_some_iff]

theorem areaLeft_move (hk : 0 < k) {d : Pt ℝ × Pt ℝ} {f : List Bool} : AreaLeft (moveAll k v polys) (moveEdge k v d) f ↔ AreaLeft polys d f := by
  unfold AreaLeft
  rw [show (moveAll k v polys).length = polys.length from List.length_map ..]
  refine and_congr_right fun _ => exists_congr fun δ₀ => and_congr_right fun _ => forall_congr' fun δ => imp_congr_right fun _ => imp_congr_right fun _ => forall_congr' fun j => ?_
  rw [leftPoint_move]
  constructor
  · intro h p hp
    rw [h _ (get_move.2 ⟨p, hp, rfl⟩), evenOdd_move hk]
  · intro h p hp
    obtain ⟨q, hq, rfl⟩ := get_move.1 hp
    rw [h q hq, evenOdd_move hk]

theorem flagsOk_move {f : List Bool} : FlagsOk (moveAll k v polys) f ↔ FlagsOk polys f := by
  unfold FlagsOk
  rw [show (moveAll k v polys).length = polys.length from List.length_map ..]
  refine and_congr_right fun _ => and_congr_right fun _ => forall_congr' fun i => ?_
  constructor
  · intro h p m hp
    exact h _ m (get_move.2 ⟨(p, m), hp, rfl⟩)
  · intro h p m hp
    obtain ⟨q, hq, e⟩ := get_move.1 hp
    cases e
    exact h q.1 q.2 hq

theorem firstBelow_move (hk : 0 < k) {l : List (Pt ℝ × Pt ℝ)} {q : Pt ℝ} {e : Pt ℝ × Pt ℝ} :
    FirstBelow (l.map (moveEdge k v)) (movePt k v q) (moveEdge k v e) ↔ FirstBelow l q e := by
  unfold FirstBelow
  rw [crosses_move hk]
  refine and_congr_right fun _ => ?_
  rw [List.forall_mem_map]
  refine forall_congr' fun u => imp_congr_right fun _ => ?_
  rw [crosses_move hk]
  refine imp_congr_right fun _ => ⟨fun h x h1 h2 => ?_, fun h x h1 h2 => ?_⟩
  · have := h _ ((over_move hk).2 h1) ((over_move hk).2 h2)
    rw [heightAt_move hk, heightAt_move hk, add_le_add_iff_right, mul_le_mul_iff_right₀ hk] at this
    exact this
  · obtain ⟨y, rfl⟩ : ∃ y, k * y + v.x = x := ⟨(x - v.x) / k, by field_simp; ring⟩
    rw [heightAt_move hk, heightAt_move hk, add_le_add_iff_right, mul_le_mul_iff_right₀ hk]
    exact h y ((over_move hk).1 h1) ((over_move hk).1 h2)

theorem nextBelow_move (hk : 0 < k) {e d : Pt ℝ × Pt ℝ} : NextBelow (moveAll k v polys) (moveEdge k v e) (moveEdge k v d) ↔ NextBelow polys e d := by
  have hall : ∀ {P : Pt ℝ × Pt ℝ → Prop}, (∀ u, P u) ↔ ∀ u, P (moveEdge k v u) := fun {P} => ⟨fun h u => h _, fun h u => by
    obtain ⟨u, rfl⟩ := moveEdge_surj (v := v) hk u
    exact h u⟩
  have hfst : ∀ {a b : Pt ℝ × Pt ℝ}, (moveEdge k v a).1 = (moveEdge k v b).1 ↔ a.1 = b.1 := (move_inj hk).eq_iff
  have hl : ∀ {a : Pt ℝ × Pt ℝ}, LeftOf (moveEdge k v a).1 (moveEdge k v a).2 ↔ LeftOf a.1 a.2 := leftOf_move hk
  have hf : FirstBelow (allEdges (moveAll k v polys)) (moveEdge k v e).1 (moveEdge k v d) ↔ FirstBelow (allEdges polys) e.1 d := by
    rw [allEdges_move]; exact firstBelow_move hk
  have key : ((moveEdge k v d).1 = (moveEdge k v e).1 ∧ 0 < cross2 (moveEdge k v d) (moveEdge k v e) ∧
      ∀ u, Drawn (moveAll k v polys) u → LeftOf u.1 u.2 → u.1 = (moveEdge k v e).1 → 0 < cross2 u (moveEdge k v e) → 0 ≤ cross2 u (moveEdge k v d)) ∨
      ((∀ u, Drawn (moveAll k v polys) u → LeftOf u.1 u.2 → u.1 = (moveEdge k v e).1 → ¬ 0 < cross2 u (moveEdge k v e)) ∧
        FirstBelow (allEdges (moveAll k v polys)) (moveEdge k v e).1 (moveEdge k v d)) ↔
      (d.1 = e.1 ∧ 0 < cross2 d e ∧ ∀ u, Drawn polys u → LeftOf u.1 u.2 → u.1 = e.1 → 0 < cross2 u e → 0 ≤ cross2 u d) ∨
        ((∀ u, Drawn polys u → LeftOf u.1 u.2 → u.1 = e.1 → ¬ 0 < cross2 u e) ∧ FirstBelow (allEdges polys) e.1 d) := by
    rw [hall (P := fun u => Drawn (moveAll k v polys) u → LeftOf u.1 u.2 → u.1 = (moveEdge k v e).1 → 0 < cross2 u (moveEdge k v e) → 0 ≤ cross2 u (moveEdge k v d)),
      hall (P := fun u => Drawn (moveAll k v polys) u → LeftOf u.1 u.2 → u.1 = (moveEdge k v e).1 → ¬ 0 < cross2 u (moveEdge k v e)), hf]
    simp only [drawn_move hk, hl, hfst, cross2_pos_move hk, cross2_nonneg_move hk]
  constructor
  · rintro ⟨h1, h2, h3⟩
    exact ⟨(drawn_move hk).1 h1, hl.1 h2, key.1 h3⟩
  · rintro ⟨h1, h2, h3⟩
    exact ⟨(drawn_move hk).2 h1, hl.2 h2, key.2 h3⟩

theorem sum_sub {α : Type} (l : List α) (f g : α → ℝ) : (l.map fun e => f e - g e).sum = (l.map f).sum - (l.map g).sum := by
  induction l with
  | nil => simp
  | cons a l ih => simp only [List.map_cons, List.sum_cons, ih]; ring

theorem area_move (hk : 0 < k) (ps : List (Pt ℝ)) : signedArea2 (ps.map (movePt k v)) = k ^ 2 * signedArea2 ps := by
  have tel : ∀ g : Pt ℝ → ℝ, ((ps.zip (ps.rotate 1)).map fun e => g e.2 - g e.1).sum = 0 := by
    intro g
    have h1 : ((ps.zip (ps.rotate 1)).map fun e => g e.1) = ps.map g := by
      rw [show (fun e : Pt ℝ × Pt ℝ => g e.1) = g ∘ Prod.fst from rfl, ← List.map_map, List.map_fst_zip (by simp)]
    have h2 : ((ps.zip (ps.rotate 1)).map fun e => g e.2) = (ps.rotate 1).map g := by
      rw [show (fun e : Pt ℝ × Pt ℝ => g e.2) = g ∘ Prod.snd from rfl, ← List.map_map, List.map_snd_zip (by simp)]
    rw [sum_sub, h1, h2, ((List.rotate_perm ps 1).map g).sum_eq, sub_self]
  have hx := tel fun p => k * (v.x * p.y)
  have hy := tel fun p => k * (v.y * p.x)
  have hz := closedEdges_move (k := k) (v := v) ps
  unfold closedEdges at hz
  unfold signedArea2
  rw [hz, List.map_map, ← List.sum_map_mul_left]
  have : ((ps.zip (ps.rotate 1)).map ((fun e : Pt ℝ × Pt ℝ => e.1.x * e.2.y - e.1.y * e.2.x) ∘ moveEdge k v)).sum =
      ((ps.zip (ps.rotate 1)).map fun e => k ^ 2 * (e.1.x * e.2.y - e.1.y * e.2.x)).sum + ((ps.zip (ps.rotate 1)).map fun e => k * (v.x * e.2.y) - k * (v.x * e.1.y)).sum -
        ((ps.zip (ps.rotate 1)).map fun e => k * (v.y * e.2.x) - k * (v.y * e.1.x)).sum := by
    rw [← List.sum_map_add, ← sum_sub]
    congr 1
    refine List.map_congr_left fun e _ => ?_
    simp only [Function.comp, moveEdge, movePt]
    ring
  rw [this, hx, hy]
  ring

theorem area_neg_move (hk : 0 < k) (ps : List (Pt ℝ)) : signedArea2 (ps.map (movePt k v)) < 0 ↔ signedArea2 ps < 0 := by
  rw [area_move hk]
  have : 0 < k ^ 2 := by positivity
  constructor <;> intro h <;> nlinarith

theorem area_pos_move (hk : 0 < k) (ps : List (Pt ℝ)) : 0 < signedArea2 (ps.map (movePt k v)) ↔ 0 < signedArea2 ps := by
  rw [area_move hk]
  exact mul_pos_iff_of_pos_left (by positivity)

/-! ### The plan -/

theorem onSegment_move (hk : 0 < k) {e : Pt ℝ × Pt ℝ} {q : Pt ℝ} : OnSegment (moveEdge k v e) (movePt k v q) ↔ OnSegment e q := by
  unfold OnSegment moveEdge movePt
  dsimp only
  refine exists_congr fun t => and_congr_right fun _ => and_congr_right fun _ => and_congr ?_ ?_
  · exact ⟨fun h => mul_left_cancel₀ hk.ne' (by linear_combination h), fun h => by rw [h]; ring⟩
  · exact ⟨fun h => mul_left_cancel₀ hk.ne' (by linear_combination h), fun h => by rw [h]; ring⟩

theorem endOf_move (hk : 0 < k) {e : Pt ℝ × Pt ℝ} {q : Pt ℝ} : EndOf (moveEdge k v e) (movePt k v q) ↔ EndOf e q :=
  or_congr (move_inj hk).eq_iff (move_inj hk).eq_iff

theorem parallel_move (hk : 0 < k) {e e' : Pt ℝ × Pt ℝ} : ParallelEdges (moveEdge k v e) (moveEdge k v e') ↔ ParallelEdges e e' := by
  have h2 : k ^ 2 ≠ 0 := by positivity
  unfold ParallelEdges moveEdge movePt
  dsimp only
  exact ⟨fun h => mul_left_cancel₀ h2 (by linear_combination h), fun h => by linear_combination k ^ 2 * h⟩

theorem nearly_move (hk : 0 < k) {e e' : Pt ℝ × Pt ℝ} : NearlyParallel (moveEdge k v e) (moveEdge k v e') ↔ NearlyParallel e e' := by
  have h4 : 0 < k ^ 4 := by positivity
  unfold NearlyParallel moveEdge movePt
  dsimp only
  constructor <;> intro h
  · refine le_of_mul_le_mul_left (a := k ^ 4) ?_ h4
    linear_combination h
  · have := mul_le_mul_of_nonneg_left h h4.le
    linear_combination this

theorem onLine_move (hk : 0 < k) {e : Pt ℝ × Pt ℝ} {q : Pt ℝ} : OnLine (moveEdge k v e) (movePt k v q) ↔ OnLine e q := by
  have h2 : k ^ 2 ≠ 0 := by positivity
  unfold OnLine moveEdge movePt
  dsimp only
  exact ⟨fun h => mul_left_cancel₀ h2 (by linear_combination h), fun h => by linear_combination k ^ 2 * h⟩

theorem clearlyOff_move (hk : 0 < k) {e : Pt ℝ × Pt ℝ} {a b : Pt ℝ} : ClearlyOff (moveEdge k v e) (movePt k v a) (movePt k v b) ↔ ClearlyOff e a b := by
  have h4 : 0 < k ^ 4 := by positivity
  unfold ClearlyOff moveEdge movePt
  dsimp only
  constructor <;> intro h
  · refine lt_of_mul_lt_mul_left (a := k ^ 4) ?_ h4.le
    linear_combination h
  · have := mul_lt_mul_of_pos_left h h4
    linear_combination this

theorem forall_edge (hk : 0 < k) {P : Pt ℝ × Pt ℝ → Prop} : (∀ u, P u) ↔ ∀ u, P (moveEdge k v u) := ⟨fun h u => h _, fun h u => by
  obtain ⟨u, rfl⟩ := moveEdge_surj (v := v) hk u
  exact h u⟩

theorem Planar.move (hk : 0 < k) (hP : Planar polys) (hw : Separate (· ∈ allCorners (moveAll k v polys)) (Drawn (moveAll k v polys))) : Planar (moveAll k v polys) := by
  refine ⟨hw, ?_, ?_, ?_, ?_⟩
  · unfold moveAll
    refine List.forall_mem_map.2 fun p hp => ?_
    dsimp only
    rw [edges_move, List.pairwise_map]
    refine (hP.once p hp).imp fun {a b} h hne => ?_
    rw [swap_move, (moveEdge_inj hk).ne_iff, (moveEdge_inj hk).ne_iff]
    exact h fun e => hne (by unfold moveEdge; rw [e])
  · rw [forall_edge (k := k) (v := v) hk]
    intro e
    rw [forall_edge (k := k) (v := v) hk]
    intro e' he he' h1 h2 q hq
    obtain ⟨q, rfl⟩ := move_surj (v := v) hk q
    rw [endOf_move hk, endOf_move hk]
    rw [swap_move] at h2
    exact hP.apart e e' ((drawn_move hk).1 he) ((drawn_move hk).1 he') (fun h => h1 (by rw [h])) (fun h => h2 (by rw [h])) q
      ⟨(onSegment_move hk).1 hq.1, (onSegment_move hk).1 hq.2⟩
  · rw [forall_edge (k := k) (v := v) hk]
    intro e
    rw [forall_edge (k := k) (v := v) hk]
    intro e' he he'
    rw [parallel_move hk, nearly_move hk]
    exact hP.angles e e' ((drawn_move hk).1 he) ((drawn_move hk).1 he')
  · rw [forall_edge (k := k) (v := v) hk]
    intro e
    rw [forall_edge (k := k) (v := v) hk]
    intro e' he he' hp
    have := hP.distances e e' ((drawn_move hk).1 he) ((drawn_move hk).1 he') ((parallel_move hk).1 hp)
    exact this.imp (onLine_move hk).2 (clearlyOff_move hk).2

theorem Removable.move (hk : 0 < k) (hR : Removable polys) : Removable (moveAll k v polys) := by
  constructor
  · intro j p d hp hm hd hD
    obtain ⟨q, hq, rfl⟩ := get_move.1 hp
    obtain ⟨d, rfl⟩ := moveEdge_surj (v := v) hk d
    rw [edges_move, swap_move, mem_move hk, mem_move hk] at hd
    rw [kept_move, drawn_move hk] at hD
    obtain ⟨j', p', h1, h2, h3, h4⟩ := hR.hides j q d hq hm hd hD
    refine ⟨j', _, h1, get_move.2 ⟨p', h2, rfl⟩, h3, ?_⟩
    rw [edges_move, swap_move, mem_move hk, mem_move hk]
    exact h4
  · rw [forall_edge (k := k) (v := v) hk]
    intro d f f' h1 h2 h3 h4
    rw [kept_move, drawn_move hk] at h2
    rw [swap_move, areaLeft_move hk] at h4
    rw [flagsOk_move, flagsOk_move]
    exact hR.blind d f f' ((drawn_move hk).1 h1) h2 ((areaLeft_move hk).1 h3) h4

/-! ### The result -/

theorem KeptOutlines.move (hk : 0 < k) {o : List (List (Pt ℝ))} (h : KeptOutlines polys o) : KeptOutlines (moveAll k v polys) (o.map fun ps => ps.map (movePt k v)) := by
  have he : (o.map fun ps => ps.map (movePt k v)).flatMap closedEdges = (o.flatMap closedEdges).map (moveEdge k v) := by
    rw [List.flatMap_map, List.map_flatMap]
    congr 1
    funext ps
    exact closedEdges_move ps
  refine ⟨?_, ?_, ?_, ?_, ?_, ?_⟩
  · rw [forall_edge (k := k) (v := v) hk]
    intro d f h1 h2
    rw [he, mem_move hk, kept_move, drawn_move hk, flagsOk_move]
    exact h.edges d f ((drawn_move hk).1 h1) ((areaLeft_move hk).1 h2)
  · rw [he]
    exact List.forall_mem_map.2 fun d hd => (drawn_move hk).2 (h.drawn d hd)
  · rw [he]
    exact h.once.map (moveEdge_inj hk)
  · refine List.forall_mem_map.2 fun ps hps j d d' hd hd' => ?_
    rw [closedEdges_move, List.getElem?_map, Option.map_eq_some_iff] at hd hd'
    obtain ⟨a, ha, rfl⟩ := hd
    obtain ⟨b, hb, rfl⟩ := hd'
    obtain ⟨h1, h2, h3⟩ := h.turns ps hps j a b ha hb
    refine ⟨congrArg (movePt k v) h1, ?_, ?_⟩
    · rw [swap_move]
      exact (moveEdge_inj hk).ne h2
    · rw [forall_edge (k := k) (v := v) hk]
      intro u k1 k2 k3 k4
      rw [kept_move, drawn_move hk] at k1
      rw [swap_move] at k4 ⊢
      rw [turns_move hk]
      exact h3 u k1 (move_inj hk k2) (fun e => k3 (by rw [e])) (fun e => k4 (by rw [e]))
  · refine List.forall_mem_map.2 fun ps hps => ?_
    obtain ⟨c, rest, rfl, h2⟩ := h.start ps hps
    exact ⟨_, _, List.map_cons, List.forall_mem_map.2 fun q hq => (leftOf_move hk).2 (h2 q hq)⟩
  · refine List.pairwise_map.2 (h.order.imp ?_)
    rintro ps ps' ⟨d, d', h1, h2, h3⟩
    refine ⟨moveEdge k v d, moveEdge k v d', ?_, ?_, ?_⟩
    · rw [closedEdges_move, List.head?_map, h1]; rfl
    · rw [closedEdges_move, List.head?_map, h2]; rfl
    · rw [cross2_pos_move hk]
      exact h3.imp (leftOf_move hk).2 (And.imp_left (congrArg (movePt k v)))

theorem head_last_move {ps : List (Pt ℝ)} {P : Pt ℝ → Pt ℝ → Pt ℝ × Pt ℝ → Prop} (hk : 0 < k) :
    (∃ w b d, (ps.map (movePt k v)).head? = some w ∧ (ps.map (movePt k v)).getLast? = some b ∧ P w b d) ↔
      ∃ w b d, ps.head? = some w ∧ ps.getLast? = some b ∧ P (movePt k v w) (movePt k v b) (moveEdge k v d) := by
  rw [List.head?_map, List.getLast?_map]
  simp only [Option.map_eq_some_iff]
  constructor
  · rintro ⟨_, _, d, ⟨w, hw, rfl⟩, ⟨b, hb, rfl⟩, h⟩
    obtain ⟨d, rfl⟩ := moveEdge_surj (v := v) hk d
    exact ⟨w, b, d, hw, hb, h⟩
  · rintro ⟨w, b, d, hw, hb, h⟩
    exact ⟨_, _, _, ⟨w, hw, rfl⟩, ⟨b, hb, rfl⟩, h⟩

theorem orphan_move (hk : 0 < k) {ps : List (Pt ℝ)} : Orphan (moveAll k v polys) (ps.map (movePt k v)) ↔ Orphan polys ps := by
  unfold Orphan
  rw [area_neg_move hk, head_last_move hk (P := fun w b d => NextBelow (moveAll k v polys) (w, b) d ∧ ¬ Drawn (keptPolygons (moveAll k v polys)) d)]
  refine and_congr_right fun _ => exists_congr fun w => exists_congr fun b => exists_congr fun d => and_congr_right fun _ => and_congr_right fun _ => ?_
  rw [kept_move, drawn_move hk]
  exact and_congr_left fun _ => nextBelow_move hk (e := (w, b))

theorem getContour_move {r : Polygon ℝ} {j : ℕ} {c : Contour ℝ} : (movePolygon k v r).contours[j]? = some c ↔ ∃ c', r.contours[j]? = some c' ∧ moveContour k v c' = c := by
  unfold movePolygon
  rw [List.getElem?_map, Option.map_eq_some_iff]

theorem IsResult.move (hk : 0 < k) {r : Polygon ℝ} (h : IsResult polys r) : IsResult (moveAll k v polys) (movePolygon k v r) := by
  refine ⟨?_, ?_, ?_, ?_, ?_, ?_, ?_, ?_⟩
  · have := h.outlines.move (v := v) hk
    unfold movePolygon moveContour
    rw [List.map_map] at this ⊢
    exact this
  · exact List.forall_mem_map.2 fun c hc => (orphan_move hk).not.2 (h.parents c hc)
  · refine List.forall_mem_map.2 fun c hc => ?_
    obtain ⟨h1, h2⟩ := h.labels c hc
    refine ⟨h1.trans (List.length_map ..).symm, fun m => ?_⟩
    refine (h2 m).trans ?_
    unfold moveContour
    dsimp only
    rw [closedEdges_move]
    constructor
    · rintro ⟨d, hd, f, hf, hm⟩
      exact ⟨_, List.mem_map_of_mem hd, f, (areaLeft_move hk).2 hf, hm⟩
    · rintro ⟨_, hd', f, hf, hm⟩
      obtain ⟨d, hd, rfl⟩ := List.mem_map.1 hd'
      exact ⟨d, hd, f, (areaLeft_move hk).1 hf, hm⟩
  · refine List.forall_mem_map.2 fun c hc => ?_
    obtain ⟨h1, h2⟩ := h.neighbors c hc
    refine ⟨h1.trans (List.length_map ..).symm, fun j c' hc' => ?_⟩
    obtain ⟨c', hj, rfl⟩ := getContour_move.1 hc'
    refine (h2 j c' hj).trans ?_
    unfold moveContour
    dsimp only
    rw [closedEdges_move, closedEdges_move]
    constructor
    · rintro ⟨d, hd, hm⟩
      exact ⟨_, List.mem_map_of_mem hd, by rw [swap_move, mem_move hk]; exact hm⟩
    · rintro ⟨_, hd', hm⟩
      obtain ⟨d, hd, rfl⟩ := List.mem_map.1 hd'
      rw [swap_move, mem_move hk] at hm
      exact ⟨d, hd, hm⟩
  · exact List.forall_mem_map.2 fun c hc => (h.external c hc).trans (area_pos_move hk _).symm
  · refine List.forall_mem_map.2 fun c hc => ?_
    obtain ⟨b, h1, h2⟩ := h.clockwise c hc
    exact ⟨b, h1, h2.trans (area_neg_move hk _).symm⟩
  · exact List.forall_mem_map.2 fun c hc => h.sorted c hc
  · refine List.forall_mem_map.2 fun c hc j => ?_
    refine (h.holes c hc j).trans ?_
    have key : ∀ g : Contour ℝ, (∃ w b d, (moveContour k v g).points.head? = some w ∧ (moveContour k v g).points.getLast? = some b ∧
        d ∈ closedEdges (moveContour k v c).points ∧ NextBelow (moveAll k v polys) (w, b) d) ↔
        ∃ w b d, g.points.head? = some w ∧ g.points.getLast? = some b ∧ d ∈ closedEdges c.points ∧ NextBelow polys (w, b) d := by
      intro g
      unfold moveContour
      dsimp only
      rw [closedEdges_move, head_last_move hk (P := fun w b d => d ∈ (closedEdges c.points).map (moveEdge k v) ∧ NextBelow (moveAll k v polys) (w, b) d)]
      refine exists_congr fun w => exists_congr fun b => exists_congr fun d => and_congr_right fun _ => and_congr_right fun _ => ?_
      rw [mem_move hk]
      exact and_congr_right fun _ => nextBelow_move hk (e := (w, b))
    constructor
    · rintro ⟨g, hg, h1, h2⟩
      exact ⟨moveContour k v g, getContour_move.2 ⟨g, hg, rfl⟩, (area_neg_move hk _).2 h1, (key g).2 h2⟩
    · rintro ⟨_, hg', h1, h2⟩
      obtain ⟨g, hg, rfl⟩ := getContour_move.1 hg'
      exact ⟨g, hg, (area_neg_move hk _).1 h1, (key g).1 h2⟩

theorem movePt_back (hk : 0 < k) (p : Pt ℝ) : movePt k⁻¹ ⟨-v.x / k, -v.y / k⟩ (movePt k v p) = p := by
  unfold movePt
  refine pt_ext ?_ ?_ <;> dsimp only <;> field_simp <;> ring

theorem movePolygon_back (hk : 0 < k) (p : Polygon ℝ) : movePolygon k⁻¹ ⟨-v.x / k, -v.y / k⟩ (movePolygon k v p) = p := by
  unfold movePolygon moveContour
  rw [List.map_map]
  have : ∀ c : Contour ℝ, ((fun c : Contour ℝ => { c with points := c.points.map (movePt k⁻¹ ⟨-v.x / k, -v.y / k⟩) }) ∘ fun c => { c with points := c.points.map (movePt k v) }) c = c := by
    intro c
    simp only [Function.comp, List.map_map]
    rw [show movePt k⁻¹ ⟨-v.x / k, -v.y / k⟩ ∘ movePt k v = id from funext fun p => movePt_back hk p, List.map_id]
  rw [List.map_congr_left fun c _ => this c, List.map_id']

theorem moveAll_back (hk : 0 < k) : moveAll k⁻¹ ⟨-v.x / k, -v.y / k⟩ (moveAll k v polys) = polys := by
  unfold moveAll
  rw [List.map_map]
  have : ∀ c : Polygon ℝ × PolygonMode, ((fun p : Polygon ℝ × PolygonMode => (movePolygon k⁻¹ ⟨-v.x / k, -v.y / k⟩ p.1, p.2)) ∘ fun p => (movePolygon k v p.1, p.2)) c = c := by
    intro c
    simp only [Function.comp, movePolygon_back hk]
  rw [List.map_congr_left fun c _ => this c, List.map_id']

/-! ### The theorems -/

variable {lib lib' : Lib}

/-- **C87.** Scaling and moving all polygons alike scales and moves the result, and changes nothing else: the outlines are in the same order and
begin at the same corners, and have the same labels, neighbors and holes; and where `compute` panics, it does so too with the moved polygons. -/
theorem C87_moved (hl : lib.Lawful) (hl' : lib'.Lawful) (hP : Planar polys) (hR : Removable polys) (hk : 0 < k) (hw : Separate (· ∈ allCorners (moveAll k v polys)) (Drawn (moveAll k v polys)))
    (op op' : BooleanOpType) {fuel fuel' : ℕ} (hf : 2 * (allCorners polys).length < fuel) (hf' : 2 * (allCorners polys).length < fuel') :
    compute lib' fuel' (moveAll k v polys) op' = compute lib fuel polys op >>= fun r => pure (movePolygon k v r) := by
  have hP' := hP.move hk hw
  have hf2 : 2 * (allCorners (moveAll k v polys)).length < fuel' := by rw [allCorners_move, List.length_map]; exact hf'
  obtain ⟨h1, h2⟩ := C86_exact hl hP hR op hf
  obtain ⟨h3, h4⟩ := C86_exact hl' hP' (hR.move hk) op' hf2
  by_cases hex : ∃ r, IsResult polys r
  · obtain ⟨r, hr⟩ := hex
    rw [(h1 r).2 hr, (h3 _).2 (hr.move hk)]
    rfl
  · have hex' : ¬ ∃ r, IsResult (moveAll k v polys) r := by
      rintro ⟨r, hr⟩
      have := hr.move (v := ⟨-v.x / k, -v.y / k⟩) (inv_pos.2 hk)
      rw [moveAll_back hk] at this
      exact hex ⟨_, this⟩
    rw [h2 hex, h4 hex']
    rfl

end Idc
