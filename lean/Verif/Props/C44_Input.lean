import Verif.Props.C43_Motion

/-!
# C44: malformed input

Coordinates that are not finite, or beyond 1e10, are neutralised. Between 1e8 and 1e10 they make the program abort. With
other coordinates the program survives, provided that the brush and the view zoom are reasonable.
-/

namespace Verif.Engine
open Verif.Mask Verif.Color Verif.Spectral Verif.Map

variable {K R σ : Type} [Field K] [LinearOrder K] [FloorRing K] [IsStrictOrderedRing K]

/-- Not finite, or beyond 1e10. -/
def Flt.Absurd : Flt K → Prop
  | .fin v => 10 ^ 10 < |v|
  | _ => True

/-- A number below 1e8. -/
def Flt.Sensible : Flt K → Prop
  | .fin v => |v| < 10 ^ 8
  | _ => False

/-- The rest: finite, from 1e8 to 1e10. -/
def Flt.Large : Flt K → Prop
  | .fin v => 10 ^ 8 ≤ |v| ∧ |v| ≤ 10 ^ 10
  | _ => False

omit [FloorRing K] in
theorem Flt.trichotomy (f : Flt K) : f.Absurd ∨ f.Sensible ∨ f.Large := by
  cases f with
  | fin v =>
    by_cases h1 : (10 : K) ^ 10 < |v|
    · exact .inl h1
    · by_cases h2 : |v| < (10 : K) ^ 8
      · exact .inr (.inl h2)
      · exact .inr (.inr ⟨not_lt.mp h2, not_lt.mp h1⟩)
  | posInf => exact .inl trivial
  | negInf => exact .inl trivial
  | nan => exact .inl trivial

omit [FloorRing K] in
theorem sane_none {f : Flt K} : sane f = none ↔ f.Absurd := by
  cases f with
  | fin v =>
    unfold sane Flt.Absurd
    simp only
    rw [lt_abs]
    constructor
    · intro h
      by_contra hc
      rw [if_neg (fun h => hc (h.imp id (fun h => by linarith)))] at h
      cases h
    · intro h
      rw [if_pos (h.imp id (fun h => by linarith))]
  | posInf => exact ⟨fun _ => trivial, fun _ => rfl⟩
  | negInf => exact ⟨fun _ => trivial, fun _ => rfl⟩
  | nan => exact ⟨fun _ => trivial, fun _ => rfl⟩

omit [FloorRing K] in
theorem sane_some {f : Flt K} (h : ¬ f.Absurd) : ∃ v, f = .fin v ∧ sane f = some v := by
  cases f with
  | fin v =>
    refine ⟨v, rfl, ?_⟩
    have : sane (Flt.fin v) ≠ none := fun hn => h (sane_none.mp hn)
    unfold sane at this ⊢
    simp only at this ⊢
    split_ifs at this ⊢
    · exact (this rfl).elim
    · rfl
  | posInf => exact (h trivial).elim
  | negInf => exact (h trivial).elim
  | nan => exact (h trivial).elim

omit [FloorRing K] [IsStrictOrderedRing K] in
theorem clampTilt_fault {f : Flt K} {r : Fault} (h : clampTilt f = .error r) : r = .assertFail ∧ f = .nan := by
  cases f with
  | nan => cases h; exact ⟨rfl, rfl⟩
  | fin v => cases h
  | posInf => cases h
  | negInf => cases h

omit [FloorRing K] [IsStrictOrderedRing K] in
theorem tilt_fault {e : Env K R σ} {xt yt : Flt K} {r : Fault} (h : tilt e xt yt = .error r) :
    r = .assertFail ∧ (xt = .nan ∨ yt = .nan) := by
  unfold tilt at h
  split_ifs at h
  · rcases bind_error h with h | ⟨t, -, h⟩
    · exact ⟨(clampTilt_fault h).1, .inl (clampTilt_fault h).2⟩
    · rcases bind_error h with h | ⟨t, -, h⟩
      · exact ⟨(clampTilt_fault h).1, .inr (clampTilt_fault h).2⟩
      · cases h
  · cases h

/-- C44, negation: a coordinate from 1e8 to 1e10 aborts the program, in any state of the brush and whatever the rest of
the event. -/
theorem large_coordinates_abort (e : Env K R σ) (fuel : Nat) (b : Brush K R) (surf : σ) {m : Motion K}
    (hx : ¬ m.x.Absurd) (hy : ¬ m.y.Absurd) (h : m.x.Large ∨ m.y.Large) :
    strokeTo e fuel b surf m = .error .assertFail := by
  obtain ⟨x, ex, sx⟩ := sane_some hx
  obtain ⟨y, ey, sy⟩ := sane_some hy
  have key : sanitise e m = .error .assertFail := by
    unfold sanitise
    cases ht : tilt e m.xtilt m.ytilt with
    | error r => rw [(tilt_fault ht).1]; rfl
    | ok t =>
      show (match sane m.x, sane m.y with | some x, some y => _ | _, _ => _) = _
      rw [sx, sy]
      dsimp only
      rw [if_neg]
      rintro ⟨h1, h2, h3, h4⟩
      rcases h with h | h
      · rw [ex] at h
        have := h.1
        rcases le_abs.mp this with h | h <;> linarith
      · rw [ey] at h
        have := h.1
        rcases le_abs.mp this with h | h <;> linarith
  unfold strokeTo
  rw [key]; rfl

omit [IsStrictOrderedRing K] in
/-- A tilt that is not a number aborts it as well. -/
theorem nan_tilt_aborts (e : Env K R σ) (fuel : Nat) (b : Brush K R) (surf : σ) {m : Motion K}
    (h : m.xtilt = .nan ∨ m.ytilt = .nan) : strokeTo e fuel b surf m = .error .assertFail := by
  have key : sanitise e m = .error .assertFail := by
    unfold sanitise
    have : tilt e m.xtilt m.ytilt = .error .assertFail := by
      unfold tilt
      rcases h with h | h
      · rw [h, if_pos (.inl (by simp))]; rfl
      · rw [h, if_pos (.inr (by simp))]
        cases hx : clampTilt m.xtilt with
        | error r => rw [(clampTilt_fault hx).1]; rfl
        | ok v => rfl
    rw [this]; rfl
  unfold strokeTo
  rw [key]; rfl

/-- C44, first half: an event with an absurd coordinate is worth as much as one without pressure at the origin, with
the view reset. -/
theorem absurd_coordinates_neutralised (e : Env K R σ) (fuel : Nat) (b : Brush K R) (surf : σ) {m : Motion K}
    (h : m.x.Absurd ∨ m.y.Absurd) :
    strokeTo e fuel b surf m = strokeTo e fuel b surf
      { m with x := .fin 0, y := .fin 0, pressure := 0, viewzoom := 0, viewrotation := 0, barrel := 0 } := by
  have key : sanitise e m = sanitise e
      { m with x := .fin 0, y := .fin 0, pressure := 0, viewzoom := 0, viewrotation := 0, barrel := 0 } := by
    unfold sanitise
    dsimp only
    have z : sane (.fin (0 : K)) = some 0 := by
      unfold sane
      simp only
      rw [if_neg (by norm_num)]
    rw [z]
    cases ht : tilt e m.xtilt m.ytilt with
    | error r => rfl
    | ok t =>
      have q : (0 : K) < 10 ^ 8 ∧ (0 : K) < 10 ^ 8 ∧ (0 : K) > -10 ^ 8 ∧ (0 : K) > -10 ^ 8 := by norm_num
      refine Eq.trans ?_ (if_pos q).symm
      simp only [ite_self]
      show (match sane m.x, sane m.y with | some x, some y => _ | _, _ => _) = _
      rcases h with h | h
      · rw [sane_none.mpr h]
      · rw [sane_none.mpr h]
        cases sane m.x <;> rfl
  unfold strokeTo
  rw [key]

/-- The rest of the event is proper: no tilt is NaN, and the coordinates are absurd or sensible. -/
structure Acceptable (m : Motion K) : Prop where
  xtilt : m.xtilt ≠ .nan
  ytilt : m.ytilt ≠ .nan
  position : (m.x.Absurd ∨ m.y.Absurd) ∨ (m.x.Sensible ∧ m.y.Sensible)

omit [FloorRing K] [IsStrictOrderedRing K] in
theorem tilt_ok (e : Env K R σ) {xt yt : Flt K} (h1 : xt ≠ .nan) (h2 : yt ≠ .nan) : ∃ t, tilt e xt yt = .ok t := by
  cases ht : tilt e xt yt with
  | ok t => exact ⟨t, rfl⟩
  | error r => rcases (tilt_fault ht).2 with h | h <;> contradiction

omit [FloorRing K] in
/-- Only the listed inputs abort: an acceptable event passes the checks. -/
theorem sanitise_ok (e : Env K R σ) {m : Motion K} (hm : Acceptable m) :
    ∃ ev, sanitise e m = .ok ev ∧ |ev.x| < 10 ^ 8 ∧ |ev.y| < 10 ^ 8 ∧
      (ev.viewzoom = m.viewzoom ∨ ((m.x.Absurd ∨ m.y.Absurd) ∧ ev.viewzoom = 0 ∧ ev.pressure = 0)) := by
  obtain ⟨t, ht⟩ := tilt_ok e hm.xtilt hm.ytilt
  unfold sanitise
  rw [ok_bind ht]
  dsimp only
  by_cases h : m.x.Absurd ∨ m.y.Absurd
  · have hh := h
    rcases h with h | h
    · rw [sane_none.mpr h]
      exact ⟨_, rfl, by simp, by simp, .inr ⟨hh, rfl, rfl⟩⟩
    · rw [sane_none.mpr h]
      cases sane m.x <;> exact ⟨_, rfl, by simp, by simp, .inr ⟨hh, rfl, rfl⟩⟩
  · obtain ⟨sx, sy⟩ := hm.position.resolve_left h
    obtain ⟨x, ex, hx⟩ := sane_some (fun q => h (.inl q))
    obtain ⟨y, ey, hy⟩ := sane_some (fun q => h (.inr q))
    rw [hx, hy]
    dsimp only
    rw [ex] at sx
    rw [ey] at sy
    have bx := abs_lt.mp (show |x| < 10 ^ 8 from sx)
    have by' := abs_lt.mp (show |y| < 10 ^ 8 from sy)
    rw [if_pos ⟨bx.2, by'.2, bx.1, by'.1⟩]
    exact ⟨_, rfl, sx, sy, .inl rfl⟩

omit [FloorRing K] in
theorem workaround_acceptable {ev : Event K} (hx : |ev.x| < 10 ^ 8) (hy : |ev.y| < 10 ^ 8) :
    Acceptable (workaroundMotion ev) :=
  ⟨by simp [workaroundMotion], by simp [workaroundMotion], .inr ⟨hx, hy⟩⟩

omit [FloorRing K] in
theorem workaround_zoom {e : Env K R σ} {ev inner : Event K} (hx : |ev.x| < 10 ^ 8) (hy : |ev.y| < 10 ^ 8)
    (h : sanitise e (workaroundMotion ev) = .ok inner) : inner.viewzoom = ev.viewzoom := by
  obtain ⟨i, hi, -, -, hz⟩ := sanitise_ok e (workaround_acceptable hx hy)
  rw [h] at hi
  cases hi
  rcases hz with hz | ⟨hz, -⟩
  · exact hz
  · have a : ¬ (Flt.fin ev.x).Absurd := by
      intro (q : 10 ^ 10 < |ev.x|); have : (10 : K) ^ 8 < 10 ^ 10 := by norm_num
      linarith
    have c : ¬ (Flt.fin ev.y).Absurd := by
      intro (q : 10 ^ 10 < |ev.y|); have : (10 : K) ^ 8 < 10 ^ 10 := by norm_num
      linarith
    rcases hz with hz | hz
    · exact (a hz).elim
    · exact (c hz).elim

/-- C44, second half, partial: with an acceptable event there is no failing assertion and no access out of bounds. What
can still happen: a position outside of the integers when the brush samples the canvas, and a value that is not finite
when the setting opaque_linearize is negative or the view zoom is not positive (which absurd coordinates make it). -/
theorem acceptable_event_faults_partial {e : Env K R σ} {fuel : Nat} {b : Brush K R} {surf : σ} {m : Motion K}
    (hm : Acceptable m) (hv : Valid b.buckets) (hp : PendingOk b) {f : Fault} (h : strokeTo e fuel b surf m = .error f) :
    f = .outOfFuel ∨ (f = .floatConv ∧ ¬ NeverSamples b.settings) ∨
      (f = .nonFinite ∧ ((b.settings sOpaqueLinearize).base < 0 ∨ m.viewzoom ≤ 0 ∨ m.x.Absurd ∨ m.y.Absurd)) := by
  obtain ⟨ev, hev, hx, hy, hz⟩ := sanitise_ok e hm
  have key : ∀ g, TurnFault b.settings ev.viewzoom g → g = .outOfFuel ∨ (g = .floatConv ∧ ¬ NeverSamples b.settings) ∨
      (g = .nonFinite ∧ ((b.settings sOpaqueLinearize).base < 0 ∨ m.viewzoom ≤ 0 ∨ m.x.Absurd ∨ m.y.Absurd)) := by
    intro g hg
    rcases hg with hg | ⟨hg, hg' | hg'⟩
    · exact .inr (.inl hg)
    · exact .inr (.inr ⟨hg, .inl hg'⟩)
    · rcases hz with hz | ⟨hz, -⟩
      · exact .inr (.inr ⟨hg, .inr (.inl (hz ▸ hg'))⟩)
      · exact .inr (.inr ⟨hg, .inr (.inr hz)⟩)
  unfold strokeTo at h
  rw [ok_bind hev] at h
  split_ifs at h
  · obtain ⟨inner, hi, -, -, -⟩ := sanitise_ok e (workaround_acceptable hx hy)
    have hzi := workaround_zoom hx hy hi
    rw [ok_bind hi] at h
    rcases bind_error h with h | ⟨r, hr, h⟩
    · rcases (strokeEvent_safe hv hp).error h with h | h
      · exact .inl h
      · exact key f (hzi ▸ h)
    · have k := (strokeEvent_safe (e := e) (fuel := fuel) (surf := surf) (ev := inner) hv hp).ok hr
      rcases (strokeEvent_safe k.1 (strokeEvent_pending hr hp)).error h with h | h
      · exact .inl h
      · exact key f (k.2 ▸ h)
  · rcases (strokeEvent_safe hv hp).error h with h | h
    · exact .inl h
    · exact key f h

/-- C44, second half: a brush that does not sample the canvas, with bounded dynamics, survives every event with sensible
coordinates. -/
theorem sensible_event_survives {e : Env K R σ} (L : Laws e) {b : Brush K R} {M ρ : K}
    (hd : BoundedDynamics b.settings M ρ) (hb : Ready b M ρ) (hs : NeverSamples b.settings)
    (hl : 0 ≤ (b.settings sOpaqueLinearize).base) (surf : σ) {m : Motion K} (h1 : m.x.Sensible) (h2 : m.y.Sensible)
    (h3 : m.xtilt ≠ .nan) (h4 : m.ytilt ≠ .nan) (hz : 0 < m.viewzoom) :
    ∃ n, ∀ k, n ≤ k → ∃ r, strokeTo e k b surf m = .ok r := by
  obtain ⟨n, hn, hk⟩ := stroke_to_terminates L hd hb surf m
  refine ⟨n, fun k h => ?_⟩
  rw [hk k h]
  cases hr : strokeTo e n b surf m with
  | ok r => exact ⟨r, rfl⟩
  | error f =>
    have no : ∀ {g : Flt K}, g.Sensible → ¬ g.Absurd := by
      intro g hg ha
      cases g with
      | fin v =>
        have a1 : |v| < (10 : K) ^ 8 := hg
        have a2 : (10 : K) ^ 10 < |v| := ha
        have : (10 : K) ^ 8 < 10 ^ 10 := by norm_num
        linarith
      | posInf => exact hg
      | negInf => exact hg
      | nan => exact hg
    rcases acceptable_event_faults_partial ⟨h3, h4, .inr ⟨h1, h2⟩⟩ hb.buckets hb.pending hr with q | q | ⟨-, q | q | q | q⟩
    · rw [q] at hr; exact (hn hr).elim
    · exact (q.2 hs).elim
    · exact absurd hl (not_le.mpr q)
    · exact absurd hz (not_lt.mpr q)
    · exact (no h1 q).elim
    · exact (no h2 q).elim

/-- The same for a whole session. -/
theorem sensible_session_survives {e : Env K R σ} (L : Laws e) {b : Brush K R} {M ρ : K}
    (hd : BoundedDynamics b.settings M ρ) (hb : Ready b M ρ) (hs : NeverSamples b.settings)
    (hl : 0 ≤ (b.settings sOpaqueLinearize).base) (surf : σ) (ms : List (Motion K))
    (h : ∀ m ∈ ms, m.x.Sensible ∧ m.y.Sensible ∧ m.xtilt ≠ .nan ∧ m.ytilt ≠ .nan ∧ 0 < m.viewzoom) :
    ∃ n, ∀ k, n ≤ k → ∃ r, strokes e k b surf ms = .ok r := by
  induction ms generalizing b surf with
  | nil => exact ⟨0, fun k _ => ⟨_, rfl⟩⟩
  | cons m ms ih =>
    obtain ⟨q1, q2, q3, q4, q5⟩ := h m (List.mem_cons_self ..)
    obtain ⟨n0, -, h0⟩ := stroke_to_terminates L hd hb surf m
    obtain ⟨n1, h1⟩ := sensible_event_survives L hd hb hs hl surf q1 q2 q3 q4 q5
    obtain ⟨r, hr⟩ := h1 (max n0 n1) (le_max_right _ _)
    obtain ⟨rb, rs⟩ := strokeTo_ready hd hb hr
    obtain ⟨n2, h2⟩ := ih (rs ▸ hd) rb (rs ▸ hs) (rs ▸ hl) r.2.2 (fun m hm => h m (List.mem_cons_of_mem _ hm))
    refine ⟨max (max n0 n1) n2, fun k hk => ?_⟩
    obtain ⟨r', hr'⟩ := h2 k (le_trans (le_max_right _ _) hk)
    refine ⟨r', ?_⟩
    have e0 : strokeTo e k b surf m = .ok r := by
      rw [h0 k (le_trans (le_max_left _ _) (le_trans (le_max_left _ _) hk)), ← h0 _ (le_max_left n0 n1), hr]
    show (strokeTo e k b surf m >>= _) = _
    rw [ok_bind e0]
    exact hr'

/-- C44, negation: neutralising is not harmless. It sets the view zoom to 0, and then a brush with dynamics on the view
zoom computes with a value that is not finite. -/
theorem absurd_coordinates_poison {e : Env K R σ} {b : Brush K R} (surf : σ) {m : Motion K} {M ρ : K} (L : Laws e)
    (hd : BoundedDynamics b.settings M ρ) (hb : Ready b M ρ) (hs : NeverSamples b.settings)
    (h : m.x.Absurd ∨ m.y.Absurd) (h3 : m.xtilt ≠ .nan) (h4 : m.ytilt ≠ .nan)
    (hu : usesInput b.settings iViewzoom = true) (hr : b.resetRequested = false) (hk : b.skip ≤ 1 / 1000)
    (h5 : m.dtime ≤ 5) : ∃ n, ∀ k, n ≤ k → strokeTo e k b surf m = .error .nonFinite := by
  obtain ⟨n, hn, hmono⟩ := stroke_to_terminates L hd hb surf m
  refine ⟨n, fun k hkn => ?_⟩
  rw [hmono k hkn]
  cases hres : strokeTo e n b surf m with
  | error f =>
    rcases acceptable_event_faults_partial ⟨h3, h4, .inl h⟩ hb.buckets hb.pending hres with q | q | q
    · rw [q] at hres; exact (hn hres).elim
    · exact (q.2 hs).elim
    · rw [q.1]
  | ok r =>
    exfalso
    obtain ⟨ev, hev, h6⟩ := strokeTo_cases hres
    have evz : ev.viewzoom = 0 ∧ ev.pressure = 0 ∧ ev.dtime ≤ 5 := by
      obtain ⟨t, ht⟩ := tilt_ok e h3 h4
      unfold sanitise at hev
      rw [ok_bind ht] at hev
      dsimp only at hev
      have dt : (if m.dtime ≤ 0 then 1 / 10000 else m.dtime) ≤ 5 := by
        split_ifs
        · norm_num
        · exact h5
      rcases h with h | h
      · rw [sane_none.mpr h] at hev
        rw [← Except.ok.inj hev]; exact ⟨rfl, rfl, dt⟩
      · rw [sane_none.mpr h] at hev
        cases hx : sane m.x <;> rw [hx] at hev <;> rw [← Except.ok.inj hev] <;> exact ⟨rfl, rfl, dt⟩
    obtain ⟨z1, z2, z3⟩ := evz
    rcases h6 with ⟨-, h6⟩ | ⟨hw, -⟩
    · have sk : skipStage e b ev.x ev.y ev.dtime = (b, ev.dtime, false) := by
        unfold skipStage
        rw [if_neg (not_lt.mpr hk)]
      rcases strokeEvent_cases h6 with ⟨q, -⟩ | ⟨-, q, -⟩ | ⟨-, -, h6⟩
      · rw [sk] at q; cases q
      · rw [sk] at q
        rcases q with q | q
        · exact absurd z3 (not_le.mpr q)
        · rw [hr] at q; cases q
      · obtain ⟨l, b1, hl, hup, -⟩ := moveTo_eq h6
        have ls : l.b.settings = b.settings := by
          have ks := dabLoop_induct (fun l : Loop K R σ => l.b.settings = b.settings)
            (fun l l' _ hst hp => by rw [(dabStep_xy hst).2.2, hp]) _ _ _ hl (by
              simp only
              rw [countDabs_st]
              show (cursor e _ _ _ _).2.2.settings = _
              rw [cursor_eq, skipStage_eq])
          exact ks.1
        unfold update at hup
        dsimp only at hup
        rw [if_pos ⟨by show ev.viewzoom ≤ 0; rw [z1], by rw [ls]; exact hu⟩] at hup
        cases hup
    · exact hw.2.1 z2

/-! ### Examples -/

section examples
open Demo

/-- A large coordinate in the middle of a stroke. -/
example : strokeTo env 100 brush [] (motion (10 ^ 9) 0 1 (1 / 10)) = .error .assertFail :=
  large_coordinates_abort _ _ _ _ (by show ¬ (10 ^ 10 < |(10 ^ 9 : ℚ)|); norm_num) (by show ¬ (10 ^ 10 < |(0 : ℚ)|); norm_num)
    (.inl (by show (10 : ℚ) ^ 8 ≤ |10 ^ 9| ∧ |(10 ^ 9 : ℚ)| ≤ 10 ^ 10; norm_num))

/-- An infinite one pulls the brush to the origin. -/
example : look (fun r => (r.1.st.x, r.1.st.y, r.1.st.pressure))
    (strokes env 1000 brush [] [motion 3 4 1 (1 / 10), { motion 3 4 1 1 with x := .posInf }]) = some (0, 0, 0) := by
  decide +kernel

/-- A brush with a curve for the view zoom: the absurd event poisons it. -/
def zoomBrush : Brush ℚ Nat :=
  { brush with
    settings := fun i => if i = sHardness then
      { base := 0, inputs := 18, used := 1
        pts := fun i => if i = iViewzoom then ⟨fun k => k, fun k => k, 2⟩ else ⟨fun _ => 0, fun _ => 0, 0⟩ }
      else settings i }

example : (strokes env 1000 zoomBrush [] [motion 3 4 1 (1 / 10), { motion 3 4 1 1 with x := .posInf }]).toOption = none
    ∧ (strokes env 1000 zoomBrush [] [motion 3 4 1 (1 / 10), motion 3 4 1 1]).toOption.isSome = true := by
  decide +kernel

end examples

end Verif.Engine
