import Verif.Props.CheckedCompute
import Verif.Spec.SharpCheck
import Verif.Spec.Lib
/-!
# The six coordinates of a room and its walls, for C91
-/

namespace Idc

/-- The walls of a room from 0 to `W`, and 16 units to both sides. -/
def wallLines (W : ℤ) : List ℤ := [-16, 0, 16, W - 16, W, W + 16]

/-- `f` takes the coordinates of a room from 0 to `V` to those of a room from `x` to `x + W`, and keeps their order. -/
structure WallFits (V W x : ℤ) (f : ℤ → ℤ) : Prop where
  v1 : f (-16) = x - 16
  v2 : f 0 = x
  v3 : f 16 = x + 16
  v4 : f (V - 16) = x + W - 16
  v5 : f V = x + W
  v6 : f (V + 16) = x + W + 16
  mono : ∀ a ∈ wallLines V, ∀ b ∈ wallLines V, a < b → f a < f b

/-- The two widths are alike. -/
def Alike (V W : ℤ) : Prop := 0 < V ∧ 0 < W ∧ compare V 16 = compare W 16 ∧ compare V 32 = compare W 32

/-- The coordinates, one after the other. -/
def fitMap (V W x t : ℤ) : ℤ :=
  if t = -16 then x - 16 else if t = 0 then x else if t = 16 then x + 16 else if t = V - 16 then x + W - 16 else if t = V then x + W else x + W + 16

theorem alike_iff {V W : ℤ} (h : Alike V W) : 0 < V ∧ 0 < W ∧ (V < 16 ↔ W < 16) ∧ (V = 16 ↔ W = 16) ∧ (V < 32 ↔ W < 32) ∧ (V = 32 ↔ W = 32) := by
  obtain ⟨h1, h2, h3, h4⟩ := h
  refine ⟨h1, h2, ?_, ?_, ?_, ?_⟩
  · rw [← compare_lt_iff_lt, ← compare_lt_iff_lt, h3]
  · exact compare_eq_iff_eq.symm.trans ((by rw [h3] : compare V 16 = .eq ↔ compare W 16 = .eq).trans compare_eq_iff_eq)
  · rw [← compare_lt_iff_lt, ← compare_lt_iff_lt, h4]
  · exact compare_eq_iff_eq.symm.trans ((by rw [h4] : compare V 32 = .eq ↔ compare W 32 = .eq).trans compare_eq_iff_eq)

theorem fitMap_fits {V W : ℤ} (h : Alike V W) (x : ℤ) : WallFits V W x (fitMap V W x) := by
  obtain ⟨h1, h2, h3, h4, h5, h6⟩ := alike_iff h
  constructor
  · simp [fitMap]
  · simp [fitMap]
  · simp [fitMap]
  · unfold fitMap; split_ifs <;> omega
  · unfold fitMap; split_ifs <;> omega
  · unfold fitMap; split_ifs <;> omega
  · intro a ha b hb hab
    unfold wallLines at ha hb
    simp only [List.mem_cons, List.not_mem_nil, or_false] at ha hb
    unfold fitMap
    split_ifs <;> omega

theorem WallFits.range {V W x : ℤ} {f : ℤ → ℤ} (h : WallFits V W x f) (hW : 0 < W) {a : ℤ} (ha : a ∈ wallLines V) : x - 16 ≤ f a ∧ f a ≤ x + W + 16 := by
  obtain ⟨v1, v2, v3, v4, v5, v6, _⟩ := h
  unfold wallLines at ha
  simp only [List.mem_cons, List.not_mem_nil, or_false] at ha
  rcases ha with rfl | rfl | rfl | rfl | rfl | rfl <;> omega

theorem WallFits.apart {V W x : ℤ} {f : ℤ → ℤ} (h : WallFits V W x f) {a b : ℤ} (ha : a ∈ wallLines V) (hb : b ∈ wallLines V) (hab : a ≠ b) : 1 ≤ |f a - f b| := by
  rcases lt_or_gt_of_ne hab with hlt | hlt
  · have := h.mono a ha b hb hlt
    rw [abs_of_neg (by omega)]; omega
  · have := h.mono b hb a ha hlt
    rw [abs_of_pos (by omega)]; omega

theorem WallFits.near {V W x : ℤ} {f : ℤ → ℤ} (h : WallFits V W x f) (hW : 0 < W) {a b : ℤ} (ha : a ∈ wallLines V) (hb : b ∈ wallLines V) : |f a - f b| ≤ W + 32 := by
  have h1 := h.range hW ha
  have h2 := h.range hW hb
  rw [abs_le]; omega

theorem WallFits.grid {V W x V' H y : ℤ} {f g : ℤ → ℤ} (hf : WallFits V W x f) (hg : WallFits V' H y g) (hW : 0 < W) (hH : 0 < H) (hW' : W ≤ 3130) (hH' : H ≤ 3130) :
    Grid {t | t ∈ wallLines V} {t | t ∈ wallLines V'} f g where
  monoX a ha b hb hab := hf.mono a ha b hb hab
  monoY a ha b hb hab := hg.mono a ha b hb hab
  apartX a ha a' ha' hn b hb b' hb' := by
    have := hg.near hH hb hb'
    have := hf.apart ha ha' hn
    omega
  apartY a ha a' ha' b hb b' hb' hn := by
    have := hf.near hW ha ha'
    have := hg.apart hb hb' hn
    omega

theorem fits_id {V : ℤ} : WallFits V V 0 id := ⟨by simp, rfl, by simp, by simp, by simp, by simp, fun _ _ _ _ h => h⟩

/-- The polygons of a room from `(0, 0)` to `(W, H)`. -/
def roomPolys (W H : ℤ) : List (Polygon ℤ × PolygonMode) :=
  [(wholePolygon [[(0, 0), (0, H), (W, H), (W, 0)]], .removeEdges),
    (wholePolygon [[(-16, H + 16), (16, H + 16), (16, H - 16), (16, -16), (-16, -16), (-16, 16)]], .removeInterior),
    (wholePolygon [[(W - 16, H + 16), (W + 16, H + 16), (W + 16, H - 16), (16, H - 16), (-16, H - 16), (-16, H + 16)]], .removeInterior),
    (wholePolygon [[(W - 16, H + 16), (W + 16, H + 16), (W + 16, H - 16), (W + 16, -16), (W - 16, -16), (W - 16, 16)]], .removeInterior),
    (wholePolygon [[(-16, -16), (-16, 16), (16, 16), (W + 16, 16), (W + 16, -16), (W - 16, -16)]], .removeInterior)]

theorem roomPolys_lines (W H : ℤ) : OnLines {t | t ∈ wallLines W} {t | t ∈ wallLines H} (roomPolys W H) := by
  constructor
  · intro p hp c hc q hq
    simp only [roomPolys, List.mem_cons, List.not_mem_nil, or_false] at hp
    rcases hp with rfl | rfl | rfl | rfl | rfl <;> simp only [wholePolygon, List.map_cons, List.map_nil, List.mem_cons, List.not_mem_nil, or_false] at hc <;> subst hc <;>
      simp only [List.mem_cons, List.not_mem_nil, or_false] at hq <;> unfold OnGrid wallLines <;> simp only [Set.mem_setOf_eq, List.mem_cons, List.not_mem_nil, or_false]
    · rcases hq with rfl | rfl | rfl | rfl <;> simp
    all_goals rcases hq with rfl | rfl | rfl | rfl | rfl | rfl <;> simp
  · intro p hp c hc e he
    simp only [roomPolys, List.mem_cons, List.not_mem_nil, or_false] at hp
    rcases hp with rfl | rfl | rfl | rfl | rfl <;> simp only [wholePolygon, List.map_cons, List.map_nil, List.mem_cons, List.not_mem_nil, or_false] at hc <;> subst hc <;>
      simp only [List.rotate_cons_succ, List.rotate_zero, List.cons_append, List.nil_append, List.zip_cons_cons, List.zip_nil_right, List.mem_cons, List.not_mem_nil, or_false] at he
    · rcases he with rfl | rfl | rfl | rfl <;> simp
    all_goals rcases he with rfl | rfl | rfl | rfl | rfl | rfl <;> simp

end Idc
