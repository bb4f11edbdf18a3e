import Verif.Lemmas.EngineResize
import Verif.Props.C53_Ranges
import Verif.Props.C81_Total
import Verif.Props.C80_Everywhere

/-!
# C110: with the radius of the brush the whole stroke is resized
-/

namespace Verif.Engine
open Verif.Map Verif.Mask

section
variable {K R σ : Type} [Field K] [LinearOrder K] [IsStrictOrderedRing K] [FloorRing K] {c d : K}

omit [FloorRing K] in
theorem trig_le {e : Env K R σ} (L : Laws e) (a : K) : |e.cos a| ≤ 1 ∧ |e.sin a| ≤ 1 := by
  have h := L.trig a
  have h1 := mul_self_nonneg (e.cos a)
  have h2 := mul_self_nonneg (e.sin a)
  constructor
  · exact abs_le_one_iff_mul_self_le_one.mpr (by linarith)
  · exact abs_le_one_iff_mul_self_le_one.mpr (by linarith)

omit [FloorRing K] in
theorem sizeLaws {e : Env K R σ} (L : Laws e) (hc : 0 < c) (hd : ∀ a, e.exp (a + d) = c * e.exp a) : SizeLaws e c d :=
  ⟨hc, hd, fun _ a b h => hypot_scale L h.le a b, L.exp_pos, trig_le L⟩

omit [FloorRing K] in
theorem Resizable.recorded {e : Env K R σ} {s : Load.Brush K} (h : Resizable e c s) : Resizable (recordDabs e) c s :=
  ⟨h.inputs, h.samples, h.base, h.radius, h.random, h.offsets, h.free, h.steady⟩

/-- **C110**. The same stroke `c` times as large, with a brush `c` times as large (`d` is the logarithm of `c`), in a view that is
zoomed out by the same factor: the same fault, or the same dabs, `c` times as large, and the brush ends in the same state. -/
theorem resized_stroke {e : Env K R σ} (L : Laws e) (hc : 0 < c) (hd : ∀ a, e.exp (a + d) = c * e.exp a) (fuel : Nat) {b : Brush K R}
    (hb : Resizable e c b.settings) (h0 : b.skip ≤ 1 / 1000) (h1 : |b.st.flip| ≤ 1) {ms : List (Motion K)}
    (hm : ∀ m ∈ ms, m.Near ∧ (m.resize c).Near) (surf surf' : σ) :
    Alike (fun r r' => r'.2.2 = r.2.2.map (resizeDab c) ∧ Resized c d r.1 r'.1)
      (strokes (recordDabs e) fuel b (surf, []) ms)
      (strokes (recordDabs e) fuel (resizeBrush c d b) (surf', []) (ms.map (Motion.resize c))) := by
  have hP : DrawsLarge (recordDabs e) c (fun s s' : σ × List (Dab.Args K) => s'.2 = s.2.map (resizeDab c)) := by
    intro s s' a h
    show s'.2 ++ [resizeDab c a] = (s.2 ++ [a]).map (resizeDab c)
    rw [h, List.map_append]
    rfl
  have k := strokes_grow (e := recordDabs e) (sizeLaws (recordDabs_laws L) hc hd) hP fuel ms (b := b) (b' := resizeBrush c d b)
    (surf := (surf, [])) (surf' := (surf', [])) ⟨⟨hb.recorded, h0, h1⟩, ⟨b.st.gridmapX, b.st.gridmapY, b.idle, b.total⟩, b.vals, rfl⟩
    rfl hm
  cases hs : strokes (recordDabs e) fuel b (surf, []) ms <;>
    cases hs' : strokes (recordDabs e) fuel (resizeBrush c d b) (surf', []) (ms.map (Motion.resize c)) <;> rw [hs, hs'] at k <;> cases k
  · exact .error _
  · rename_i h
    obtain ⟨q1, -, p, v, q2⟩ := h
    exact .ok ⟨q1, p.gx, p.gy, p.idle, p.total, v, q2⟩

end
end Verif.Engine

/-! ### Examples -/

namespace Verif.Painting
open Verif.Full Verif.Engine Verif.Map

section Demo
open Verif.Painting.Demo

/-- A plain brush of radius 1 that is made twice as large. -/
theorem plain_resizable : Resizable canvasEnv 2 (plainBrush (paintValues False)).settings := by
  have c : ∀ id i, calculate ((plainBrush (paintValues False)).settings id) i = paintValues False id :=
    fun id i => plainBrush_value _ id i
  have e1 : canvasEnv.exp (0 : ℝ) = 1 := Real.exp_zero
  have hr : ∀ i, calculate ((plainBrush (paintValues False)).settings sRadiusLogarithmic) i = 0 := fun i => by
    rw [c]; norm_num [paintValues]
  have hf : BothFit (2 : ℝ) 1 := ⟨⟨by norm_num, by norm_num⟩, by norm_num, by norm_num⟩
  refine ⟨fun _ _ _ => rfl, ?_, ?_, ?_, ?_, ?_, ?_, ?_⟩
  · rintro i ⟨-, k | k⟩
    · apply k
      rw [plainBrush_value]; norm_num [paintValues]
    · cases k
  · rw [show ((plainBrush (paintValues False)).settings sRadiusLogarithmic).base = 0 by norm_num [plainBrush, paintValues], e1]
    exact hf
  · intro i
    dsimp only
    rw [hr, e1, c, c]
    refine ⟨hf, ?_, ?_⟩ <;> norm_num [paintValues, Mask.clampK]
  · intro i g h
    rw [c] at h
    exact absurd (by norm_num [paintValues]) h
  · intro i
    dsimp only
    rw [show offsetSum (fun id => calculate ((plainBrush (paintValues False)).settings id) i) = 0 by
      unfold offsetSum
      simp only [c]
      norm_num [paintValues, Color.maxC], zero_mul, mul_zero]
    norm_num
  · intro i
    rw [c]; norm_num [paintValues]
  · norm_num [plainBrush, paintValues]


/-- The events of a pen on the right half of the desk. -/
noncomputable def penMotions (ps : List {p : ℝ × ℝ // rightDesk p.1 p.2}) : List (Motion ℝ) :=
  ps.map fun p => ⟨.fin p.1.1, .fin p.1.2, 1 / 2, .fin 0, .fin 0, 1 / 10, 1, 0, 0, false⟩

/-- Whatever is drawn on the right half of the desk, also twice as large. -/
example (ps : List {p : ℝ × ℝ // rightDesk p.1 p.2}) :
    Alike (fun r r' => r'.2.2 = r.2.2.map (resizeDab 2) ∧ Resized 2 (Real.log 2) r.1 r'.1)
      (strokes (recordDabs canvasEnv) 1000 (plainBrush (paintValues False)) ([], []) (penMotions ps))
      (strokes (recordDabs canvasEnv) 1000 (resizeBrush 2 (Real.log 2) (plainBrush (paintValues False))) ([], [])
        ((penMotions ps).map (Motion.resize 2))) := by
  refine resized_stroke (realEnv_laws _ _ _ _ (fun _ => ⟨le_refl _, one_pos⟩)) two_pos (fun a => ?_) 1000 plain_resizable ?_ ?_ ?_ _ _
  · show Real.exp (a + Real.log 2) = 2 * Real.exp a
    rw [Real.exp_add, Real.exp_log two_pos, mul_comm]
  · norm_num [plainBrush]
  · norm_num [plainBrush, State.cleared]
  · intro m hm
    obtain ⟨p, -, rfl⟩ := List.mem_map.mp hm
    have q1 : |p.1.1| ≤ 100000 := abs_le.mpr ⟨by linarith [p.2.1], p.2.2.1⟩
    have q2 : |p.1.2| ≤ 100000 := p.2.2.2
    have far : ∀ t : ℝ, |t| ≤ 100000 → |2 * t| < 10 ^ 8 := fun t ht => by
      rw [abs_mul, abs_two]; linarith
    exact ⟨⟨lt_of_le_of_lt q1 (by norm_num), lt_of_le_of_lt q2 (by norm_num)⟩, far _ q1, far _ q2⟩

/-- The dabs of a stroke: place, radius, hardness. -/
def sizes (b : Brush ℚ Nat) (ms : List (Motion ℚ)) : Option (List (ℚ × ℚ × ℚ × ℚ)) :=
  Engine.Demo.look (fun r => r.2.map fun a => (a.x, a.y, a.radius, a.hardness)) (strokes Engine.Demo.env 100 b [] ms)

/-- The red brush with a soft edge. Its radius is 3, and 6 with 3 more on the logarithmic scale of the demo. -/
def soft : Brush ℚ Nat := Engine.Demo.set red sHardness 0

example : sizes soft nearby = some [(-7 / 10, 25 / 2, 3, 0), (-7 / 10, 14, 3, 0), (-7 / 10, 31 / 2, 3, 0)] ∧
    sizes (resizeBrush 2 3 soft) (nearby.map (Motion.resize 2)) = some [(-7 / 5, 25, 6, 0), (-7 / 5, 28, 6, 0), (-7 / 5, 31, 6, 0)] := by
  constructor <;> decide +kernel

/-- A brush with a hard edge gets another edge from the anti-aliasing: the condition on it is needed. -/
example : (sizes red nearby).map (List.map fun a => a.2.2.2) = some [11 / 16, 11 / 16, 11 / 16] ∧
    (sizes (resizeBrush 2 3 red) (nearby.map (Motion.resize 2))).map (List.map fun a => a.2.2.2) = some [4 / 5, 4 / 5, 4 / 5] := by
  constructor <;> decide +kernel

/-- A brush that is pushed ahead by the speed of the pen on the screen. -/
def pushed : Brush ℚ Nat := Engine.Demo.set soft sOffsetBySpeed 1

example : sizes (resizeBrush 2 3 pushed) (nearby.map (Motion.resize 2)) =
    (sizes pushed nearby).map (List.map fun a => (2 * a.1, 2 * a.2.1, 2 * a.2.2.1, a.2.2.2)) := by
  decide +kernel

end Demo
end Verif.Painting
