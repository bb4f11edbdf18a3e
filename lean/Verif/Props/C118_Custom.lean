import Verif.Props.C104_Pen

/-!
# C118: the custom input follows its setting, step by step

A brush can set an input of its own. It follows the value that the settings ask for by the same fraction in each step, whatever
the time between them. The texts of the settings promise that this happens with each dab and at once if there is no slowness;
the code also takes a step at the end of each motion event, and each dab reads the value from before its own step.
-/

namespace Verif.Engine
open Verif.Mask Verif.Color Verif.Spectral Verif.Map

section
variable {K R σ : Type} [Field K] [LinearOrder K] [IsStrictOrderedRing K] [FloorRing K]

/-! ## Specification -/

/-- A value that was `c` and follows `v` with the slowness `T`, after `k` steps. -/
def stepped (e : Env K R σ) (T v c : K) (k : Nat) : K := v + (c - v) * leftOver e T (1 / 10) ^ k

/-- The brush asks for the custom input `v` with the slowness `T`, and draws a dab in each step. -/
structure AsksCustom (s : Load.Brush K) (v T : K) : Prop where
  wanted : ∀ i, calculate (s sCustomInput) i = v
  slowness : ∀ i, calculate (s sCustomInputSlowness) i = T
  samples : NeverSamples s

/-- The dab has the shape that the settings ask for when the custom input is `c`. -/
def ReadsCustom (e : Env K R σ) (s : Load.Brush K) (a : Dab.Args K) (c : K) : Prop :=
  ∃ i, i iCustom = c ∧ DabShape e s i a

/-- The dabs read what a value that was `c` is after 0, 1, 2, … steps. -/
def ReadSteps (e : Env K R σ) (s : Load.Brush K) (T v c : K) (l : List (Dab.Args K)) : Prop :=
  List.Forall₂ (ReadsCustom e s) l ((List.range l.length).map (stepped e T v c))

/-- The same over several motion events; at the end of each there is one more step. -/
def ReadEvents (e : Env K R σ) (s : Load.Brush K) (T v : K) : K → List (List (Dab.Args K)) → Prop
  | _, [] => True
  | c, l :: ls => ReadSteps e s T v c l ∧ ReadEvents e s T v (stepped e T v c (l.length + 1)) ls

/-- The custom input after a step with the values `i` of the inputs. -/
def customNext (e : Env K R σ) (s : Load.Brush K) (i : Nat → K) : K :=
  stepped e (calculate (s sCustomInputSlowness) i) (calculate (s sCustomInput) i) (i iCustom) 1

/-- The first dab reads the custom input `c`, each further dab reads what came out of the step of the dab before it, and out
of the last one comes `c'`. -/
def ReadChain (e : Env K R σ) (s : Load.Brush K) : K → List (Dab.Args K) → K → Prop
  | c, [], c' => c' = c
  | c, a :: l, c' => ∃ i, i iCustom = c ∧ DabShape e s i a ∧ ReadChain e s (customNext e s i) l c'

/-- The custom input that the settings ask for is between `lo` and `hi`, whatever the inputs. -/
def AsksBetween (s : Load.Brush K) (lo hi : K) : Prop := ∀ i, lo ≤ calculate (s sCustomInput) i ∧ calculate (s sCustomInput) i ≤ hi

/-! ## One step -/

omit [IsStrictOrderedRing K] [FloorRing K] in
theorem stepped_zero (e : Env K R σ) (T v c : K) : stepped e T v c 0 = c := by unfold stepped; ring

omit [IsStrictOrderedRing K] [FloorRing K] in
theorem stepped_add (e : Env K R σ) (T v c : K) (k n : Nat) : stepped e T v (stepped e T v c k) n = stepped e T v c (k + n) := by
  unfold stepped; rw [pow_add]; ring

omit [IsStrictOrderedRing K] in
theorem update_custom {e : Env K R σ} {b b' : Brush K R} {s : Step K} (h : update e b s = .ok b') :
    ∃ i, i iCustom = b.st.customInput ∧ b'.vals = (fun id => calculate (b.settings id) i) ∧
      b'.st.actualRadius = finalRadius e (calculate (b.settings sRadiusLogarithmic) i) ∧
      b'.st.ratio = calculate (b.settings sEllipticalDabRatio) i ∧
      b'.st.customInput = stepped e (calculate (b.settings sCustomInputSlowness) i) (calculate (b.settings sCustomInput) i)
        b.st.customInput 1 := by
  rw [update_eq h]
  refine ⟨(inputsOf e b (moveStates e b s)).get, rfl, rfl, rfl, rfl, ?_⟩
  show approach b.st.customInput _ (1 - expDecay e _ (1 / 10)) = _
  unfold approach stepped expDecay leftOver settingValues
  split_ifs <;> ring

/-- A brush that never samples draws one dab each time. -/
theorem drawDab_one {e : Env K R σ} {b : Brush K R} {surf : σ × List (Dab.Args K)} {lin : Bool}
    {p : Bool × Brush K R × (σ × List (Dab.Args K))} {i : Nat → K} (hn : NeverSamples b.settings)
    (hv : b.vals = fun id => calculate (b.settings id) i)
    (hr : b.st.actualRadius = askedRadius e (calculate (b.settings sRadiusLogarithmic) i))
    (hq : b.st.ratio = calculate (b.settings sEllipticalDabRatio) i)
    (hd : drawDab (recordDabs e) { b with st := { b.st with flip := b.st.flip * -1 } } surf lin = .ok p) :
    ∃ a, p.2.2.2 = surf.2 ++ [a] ∧ DabShape e b.settings i a := by
  rcases drawDab_new hv hr hq hd with h | ⟨a, h, h1, -⟩
  · exfalso
    obtain ⟨o, pos, sm, -, h2, h3, -, h4⟩ := drawDab_cases hd
    have fr := (dabPosition_frame h2).trans (dabRadius_frame (recordDabs e) pos.2.2 o)
    unfold smudgeStage at h3
    rw [if_neg] at h3
    · have h3' := Except.ok.inj h3
      rcases h4 with ⟨q, -⟩ | ⟨-, col, -, -, q⟩
      · rw [← h3'] at q; cases q
      · rw [q] at h
        have h' : (sm.2.2.2 ++ [_] : List (Dab.Args K)) = surf.2 := h
        rw [← h3'] at h'
        have := congrArg List.length h'
        simp at this
    · rw [fr.vals, fr.settings]
      show ¬ (b.vals sSmudgeLength < 1 ∧ (b.vals sSmudge ≠ 0 ∨ isConstant (b.settings sSmudge) = false))
      rw [hv]
      exact hn i
  · exact ⟨a, h, h1⟩

/-- One more dab. -/
theorem ReadChain.snoc {e : Env K R σ} {s : Load.Brush K} {a : Dab.Args K} {i : Nat → K} (ha : DabShape e s i a) (l : List (Dab.Args K)) :
    ∀ {c : K}, ReadChain e s c l (i iCustom) → ReadChain e s c (l ++ [a]) (customNext e s i) := by
  induction l with
  | nil => intro c h; exact ⟨i, h, ha, rfl⟩
  | cons a' l ih => intro c h; obtain ⟨j, h1, h2, h3⟩ := h; exact ⟨j, h1, h2, ih h3⟩

theorem moveTo_chain {e : Env K R σ} {fuel : Nat} {b : Brush K R} (hs : NeverSamples b.settings)
    {ev : Event K} {surf : σ × List (Dab.Args K)} {X Y dt : K} {r : Bool × Brush K R × (σ × List (Dab.Args K))}
    (h : moveTo (recordDabs e) fuel b surf ev X Y dt = .ok r) :
    ∃ new i, r.2.2.2 = surf.2 ++ new ∧ ReadChain e b.settings b.st.customInput new (i iCustom) ∧
      r.2.1.st.customInput = customNext e b.settings i := by
  obtain ⟨l, b1, hl, hu, -, h2, h3⟩ := moveTo_eq h
  obtain ⟨h0, new, hnew, hall⟩ := (dabLoop_induct
    (fun l : Loop K R (σ × List (Dab.Args K)) => l.b.settings = b.settings ∧ ∃ new, l.surf.2 = surf.2 ++ new ∧
      ReadChain e b.settings b.st.customInput new l.b.st.customInput)
    (fun l l' _ hst hi => by
      obtain ⟨-, b1, p, b2, hu, hd, h2, e1⟩ := dabStep_eq hst
      obtain ⟨h0, new, hnew, hall⟩ := hi
      have hset : b1.settings = b.settings := by rw [update_eq hu]; exact h0
      obtain ⟨i, k1, k2, k3, k4, k5⟩ := update_custom hu
      rw [h0] at k2 k3 k4 k5
      have fr := drawDab_frame hd
      obtain ⟨a, q, q1⟩ := drawDab_one (e := e) (i := i) (by rw [hset]; exact hs) (by rw [hset]; exact k2)
        (by rw [hset, ← finalRadius_eq]; exact k3) (by rw [hset]; exact k4) hd
      rw [e1]
      simp only
      rw [countDabs_st, h2]
      refine ⟨?_, new ++ [a], ?_, ?_⟩
      · show p.2.1.settings = _
        rw [fr.settings]; exact hset
      · rw [q, hnew, List.append_assoc]
      · show ReadChain _ _ _ _ p.2.1.st.customInput
        have ec : p.2.1.st.customInput = customNext e b.settings i := by
          rw [fr]
          show b1.st.customInput = _
          rw [k5, ← k1]; rfl
        rw [ec]
        exact ReadChain.snoc (by rw [← hset]; exact q1) new (by rw [k1]; exact hall)) _ _ _ hl
    ⟨by simp only; rw [countDabs_st], [], by simp, by simp only; rw [countDabs_st]; rfl⟩).1
  obtain ⟨i, k1, -, -, -, k5⟩ := update_custom hu
  rw [h0] at k5
  refine ⟨new, i, by rw [h3]; exact hnew, by rw [k1]; exact hall, ?_⟩
  rw [h2, splitStroke_eq]
  show b1.st.customInput = _
  rw [k5, ← k1]; rfl

/-- After `n` steps. -/
structure Gliding (e : Env K R σ) (s0 : Load.Brush K) (T v c : K) (old : List (Dab.Args K)) (b : Brush K R)
    (l : List (Dab.Args K)) : Prop where
  settings : b.settings = s0
  custom : ∃ new, l = old ++ new ∧ ReadSteps e s0 T v c new ∧ b.st.customInput = stepped e T v c new.length

theorem dabStep_glides {e : Env K R σ} {s0 : Load.Brush K} {T v c : K} (hs : AsksCustom s0 v T) {ev : Event K} {X Y : K}
    {old : List (Dab.Args K)} {l l' : Loop K R (σ × List (Dab.Args K))} (hi : Gliding e s0 T v c old l.b l.surf.2)
    (h : dabStep (recordDabs e) ev X Y l = .ok l') : Gliding e s0 T v c old l'.b l'.surf.2 := by
  obtain ⟨-, b1, p, b2, hu, hd, h2, e1⟩ := dabStep_eq h
  obtain ⟨h0, new, hnew, hall, hc⟩ := hi
  have hset : b1.settings = s0 := by rw [update_eq hu]; exact h0
  obtain ⟨i, k1, k2, k3, k4, k5⟩ := update_custom hu
  rw [h0] at k2 k3 k4 k5
  rw [hs.wanted, hs.slowness] at k5
  have fr := drawDab_frame hd
  obtain ⟨a, q, q1⟩ := drawDab_one (e := e) (i := i) (by rw [hset]; exact hs.samples) (by rw [hset]; exact k2)
    (by rw [hset, ← finalRadius_eq]; exact k3) (by rw [hset]; exact k4) hd
  rw [e1]
  simp only
  rw [countDabs_st, h2]
  refine ⟨?_, new ++ [a], ?_, ?_, ?_⟩
  · show p.2.1.settings = _
    rw [fr.settings]; exact hset
  · rw [q, hnew, List.append_assoc]
  · unfold ReadSteps
    rw [List.length_append, List.length_singleton, List.range_succ, List.map_append]
    refine List.rel_append hall (.cons ⟨i, k1.trans hc, by rw [← hset]; exact q1⟩ .nil)
  · show p.2.1.st.customInput = _
    rw [fr]
    show b1.st.customInput = _
    rw [k5, hc, List.length_append, List.length_singleton]
    exact stepped_add e T v c _ 1

theorem moveTo_glides {e : Env K R σ} {fuel : Nat} {b : Brush K R} {T v : K} (hs : AsksCustom b.settings v T)
    {ev : Event K} {surf : σ × List (Dab.Args K)} {X Y dt : K} {r : Bool × Brush K R × (σ × List (Dab.Args K))}
    (h : moveTo (recordDabs e) fuel b surf ev X Y dt = .ok r) :
    ∃ new, r.2.2.2 = surf.2 ++ new ∧ ReadSteps e b.settings T v b.st.customInput new ∧
      r.2.1.st.customInput = stepped e T v b.st.customInput (new.length + 1) := by
  obtain ⟨l, b1, hl, hu, -, h2, h3⟩ := moveTo_eq h
  obtain ⟨h0, new, hnew, hall, hc⟩ := (dabLoop_induct
    (fun l : Loop K R (σ × List (Dab.Args K)) => Gliding e b.settings T v b.st.customInput surf.2 l.b l.surf.2)
    (fun l l' _ hst hi => dabStep_glides hs hi hst) _ _ _ hl
    ⟨by simp only; rw [countDabs_st], [], by simp, .nil, by
      simp only; rw [countDabs_st]; exact (stepped_zero e T v _).symm⟩).1
  obtain ⟨i, -, -, -, -, k5⟩ := update_custom hu
  rw [h0, hs.wanted, hs.slowness] at k5
  refine ⟨new, by rw [h3]; exact hnew, hall, ?_⟩
  rw [h2, splitStroke_eq]
  show b1.st.customInput = _
  rw [k5, hc]
  exact stepped_add e T v _ _ 1

theorem strokeEvent_glides {e : Env K R σ} {fuel : Nat} {b : Brush K R} (hu : Undisturbed b) {T v : K}
    (hs : AsksCustom b.settings v T) {ev : Event K} (h5 : ev.dtime ≤ 5) {surf : σ × List (Dab.Args K)}
    {r : Bool × Brush K R × (σ × List (Dab.Args K))} (h : strokeEvent (recordDabs e) fuel b surf ev = .ok r) :
    ∃ new, r.2.2.2 = surf.2 ++ new ∧ ReadSteps e b.settings T v b.st.customInput new ∧
      r.2.1.st.customInput = stepped e T v b.st.customInput (new.length + 1) := by
  have sk : skipStage (recordDabs e) b ev.x ev.y ev.dtime = (b, ev.dtime, false) := steady_skip hu _ _ _
  have cu := cursor_tracks (e := recordDabs e) (b := b) (T := (b.settings sSlowTracking).base) ⟨rfl, hu.noise, hu.skip⟩ ev.x ev.y ev.dtime
  rcases strokeEvent_cases h with ⟨h1, -⟩ | ⟨-, h1, -⟩ | ⟨-, -, h⟩
  · rw [sk] at h1; cases h1
  · rw [sk, hu.reset] at h1
    rcases h1 with q | q
    · exact absurd q (not_lt.mpr h5)
    · cases q
  · simp only [sk, cu] at h
    exact moveTo_glides hs h

omit [FloorRing K] in
theorem sanitise_dtime {e : Env K R σ} {m : Motion K} {ev : Event K} (h : sanitise e m = .ok ev) :
    ev.dtime = if m.dtime ≤ 0 then 1 / 10000 else m.dtime := by
  unfold sanitise at h
  obtain ⟨t, -, h⟩ := bind_ok h
  dsimp only at h
  generalize (if m.dtime ≤ 0 then 1 / 10000 else m.dtime : K) = d at *
  generalize (if m.pressure ≤ 0 then 0 else m.pressure : K) = p at *
  split at h
  · split_ifs at h
    rw [← Except.ok.inj h]
  · rw [← Except.ok.inj h]

/-! ## Sessions -/

/-- **C118** (in the steps that the code takes). The first dab of a motion event reads the custom input as it is, each further dab
reads it one step later, and at the end of the event there is one more step: after `k` steps a value that was `c` has come to
`v + (c - v) * d ^ k`, whatever the time between the steps. -/
theorem custom_follows_partial {e : Env K R σ} {fuel : Nat} {T v : K} (ms : List (Motion K)) : ∀ {b : Brush K R}, Midst b.settings b →
    AsksCustom b.settings v T → (∀ m ∈ ms, m.dtime ≤ 1 / 10) → ∀ {surf : σ × List (Dab.Args K)}
    {r : Brush K R × (σ × List (Dab.Args K))}, strokes (recordDabs e) fuel b surf ms = .ok r →
    ∃ parts, r.2.2 = surf.2 ++ parts.flatten ∧ parts.length = ms.length ∧ ReadEvents e b.settings T v b.st.customInput parts ∧
      r.1.st.customInput = stepped e T v b.st.customInput (parts.flatten.length + ms.length) := by
  induction ms with
  | nil =>
    intro b _ _ _ surf r h
    rw [← Except.ok.inj h]
    exact ⟨[], by simp, rfl, trivial, (stepped_zero e T v _).symm⟩
  | cons m ms ih =>
    intro b hb hs hm surf r h
    unfold strokes at h
    obtain ⟨r1, h1, h⟩ := bind_ok h
    have k := strokeTo_placid hb.placid h1
    have kset := k.settings
    obtain ⟨ev, he, ⟨-, h2⟩ | ⟨w, -⟩⟩ := strokeTo_cases h1
    · have h5 : ev.dtime ≤ 5 := by
        rw [sanitise_dtime he]
        have := hm m (by simp)
        split_ifs <;> linarith
      obtain ⟨new, q1, q2, q3⟩ := strokeEvent_glides hb.still hs h5 h2
      obtain ⟨parts, p1, p2, p3, p4⟩ := ih (by rw [kset]; exact k) (by rw [kset]; exact hs) (fun m' hm' => hm m' (by simp [hm'])) h
      rw [q3, kset] at p3
      rw [q3] at p4
      refine ⟨new :: parts, by rw [p1, q1, List.append_assoc]; rfl, by simp [p2], ⟨q2, p3⟩, ?_⟩
      rw [p4, stepped_add]
      congr 1
      simp only [List.flatten_cons, List.length_append, List.length_cons]
      ring
    · exfalso
      have w1 : 1 / 10 < ev.dtime := w.1
      rw [sanitise_dtime he] at w1
      have := hm m (by simp)
      split_ifs at w1 <;> linarith

/-- **C118** (in the steps that the code takes), for settings that depend on inputs. Within a motion event each dab reads the custom
input that came out of the step of the dab before it: one dab later than the settings asked for it. -/
theorem custom_lags_partial {e : Env K R σ} {fuel : Nat} {b : Brush K R} (hb : Midst b.settings b) (hs : NeverSamples b.settings)
    {m : Motion K} (hm : m.dtime ≤ 1 / 10) {surf : σ × List (Dab.Args K)} {r : Bool × Brush K R × (σ × List (Dab.Args K))}
    (h : strokeTo (recordDabs e) fuel b surf m = .ok r) :
    ∃ new i, r.2.2.2 = surf.2 ++ new ∧ ReadChain e b.settings b.st.customInput new (i iCustom) ∧
      r.2.1.st.customInput = customNext e b.settings i := by
  obtain ⟨ev, he, ⟨-, h⟩ | ⟨w, -⟩⟩ := strokeTo_cases h
  · have hu := hb.still
    have sk : skipStage (recordDabs e) b ev.x ev.y ev.dtime = (b, ev.dtime, false) := steady_skip hu _ _ _
    have cu := cursor_tracks (e := recordDabs e) (b := b) (T := (b.settings sSlowTracking).base) ⟨rfl, hu.noise, hu.skip⟩ ev.x ev.y ev.dtime
    rcases strokeEvent_cases h with ⟨h1, -⟩ | ⟨-, h1, -⟩ | ⟨-, -, h⟩
    · rw [sk] at h1; cases h1
    · rw [sk, hu.reset] at h1
      rcases h1 with q | q
      · simp only [sanitise_dtime he] at q
        split_ifs at q <;> linarith
      · cases q
    · simp only [sk, cu] at h
      exact moveTo_chain hs h
  · exfalso
    have w1 : 1 / 10 < ev.dtime := w.1
    rw [sanitise_dtime he] at w1
    split_ifs at w1 <;> linarith

omit [IsStrictOrderedRing K] [FloorRing K] in
theorem leftOver_range {e : Env K R σ} (h : Decays e) (T : K) [IsStrictOrderedRing K] :
    0 ≤ leftOver e T (1 / 10) ∧ leftOver e T (1 / 10) ≤ 1 := by
  unfold leftOver
  split_ifs with hT
  · exact ⟨le_refl _, zero_le_one⟩
  · exact h _ (div_nonpos_of_nonpos_of_nonneg (by norm_num) (lt_trans (by norm_num) (not_le.mp hT)).le)

omit [FloorRing K] in
theorem stepped_between {e : Env K R σ} (h : Decays e) {T v c lo hi : K} (hv : lo ≤ v ∧ v ≤ hi) (hc : lo ≤ c ∧ c ≤ hi) :
    lo ≤ stepped e T v c 1 ∧ stepped e T v c 1 ≤ hi := by
  obtain ⟨d0, d1⟩ := leftOver_range h T
  unfold stepped
  rw [pow_one]
  generalize leftOver e T (1 / 10) = d at *
  constructor <;> nlinarith

/-- The invariant. -/
structure Hemmed (e : Env K R σ) (s0 : Load.Brush K) (lo hi : K) (b : Brush K R) (l : List (Dab.Args K)) : Prop where
  settings : b.settings = s0
  custom : lo ≤ b.st.customInput ∧ b.st.customInput ≤ hi
  dabs : ∀ a ∈ l, ∃ c, lo ≤ c ∧ c ≤ hi ∧ ReadsCustom e s0 a c

theorem hemmed_invariant {e : Env K R σ} (he : Decays e) {s0 : Load.Brush K} {lo hi : K} (h0 : lo ≤ 0 ∧ 0 ≤ hi)
    (hs : AsksBetween s0 lo hi) : Invariant (recordDabs e) (fun _ => True) (fun _ _ => True)
      (fun (b : Brush K R) (s : σ × List (Dab.Args K)) => Hemmed e s0 lo hi b s.2)
      (fun b s => Hemmed e s0 lo hi b s.2 ∧ ∃ i, lo ≤ i iCustom ∧ i iCustom ≤ hi ∧
        b.vals = (fun id => calculate (b.settings id) i) ∧
        b.st.actualRadius = askedRadius e (calculate (b.settings sRadiusLogarithmic) i) ∧
        b.st.ratio = calculate (b.settings sEllipticalDabRatio) i) where
  skip b s ev _ h := by rw [skipStage_eq]; exact ⟨h.settings, h.custom, h.dabs⟩
  pull b s ev _ _ h := by rw [cursor_eq, skipStage_eq]; exact ⟨h.settings, h.custom, h.dabs⟩
  target _ _ _ _ _ _ := trivial
  start b s ev x y b' _ _ h _ hb := by
    obtain ⟨bk, -, e1⟩ := startOver_eq hb
    rw [e1]; exact ⟨h.settings, h0, h.dabs⟩
  count b s x y dt h := by rw [countDabs_st]; exact ⟨h.settings, h.custom, h.dabs⟩
  step b s ev x y d f t b' _ _ _ _ _ _ h hu := by
    have hset : b'.settings = s0 := by rw [update_eq hu]; exact h.settings
    obtain ⟨i, k1, k2, k3, k4, k5⟩ := update_custom hu
    rw [h.settings] at k2 k3 k4 k5
    refine ⟨⟨hset, ?_, h.dabs⟩, i, by rw [k1]; exact h.custom.1, by rw [k1]; exact h.custom.2, by rw [hset]; exact k2,
      by rw [hset, ← finalRadius_eq]; exact k3, by rw [hset]; exact k4⟩
    rw [k5]
    exact stepped_between (e := recordDabs e) he (hs i) h.custom
  draw b s lin p h hd := by
    obtain ⟨h, i, i0, i1, k2, k3, k4⟩ := h
    have fr := drawDab_frame hd
    refine ⟨?_, ?_, ?_⟩
    · show p.2.1.settings = _
      rw [fr.settings]; exact h.settings
    · show lo ≤ p.2.1.st.customInput ∧ p.2.1.st.customInput ≤ hi
      rw [fr]; exact h.custom
    · rcases drawDab_new (e := e) k2 k3 k4 hd with q | ⟨a, q, q1, -⟩
      · rw [q]; exact h.dabs
      · rw [q]
        intro a' ha'
        rcases List.mem_append.mp ha' with g | g
        · exact h.dabs a' g
        · rw [List.mem_singleton.mp g]
          exact ⟨i iCustom, i0, i1, i, rfl, by rw [← h.settings]; exact q1⟩
  finish b s n total idle h := ⟨h.1.settings, h.1.custom, h.1.dabs⟩

/-- **C118**, the range. The custom input never leaves the range of 0 and of the values that the settings ask for, in any
session: this is what the brush shows afterwards and what every dab reads. -/
theorem custom_between {e : Env K R σ} (he : Decays e) {fuel : Nat} (ms : List (Motion K)) {b : Brush K R} (hb : Underway b)
    {lo hi : K} (h0 : lo ≤ 0 ∧ 0 ≤ hi) (hs : AsksBetween b.settings lo hi) (hc : lo ≤ b.st.customInput ∧ b.st.customInput ≤ hi)
    {surf : σ} {r : Brush K R × (σ × List (Dab.Args K))} (h : strokes (recordDabs e) fuel b (surf, []) ms = .ok r) :
    (lo ≤ r.1.st.customInput ∧ r.1.st.customInput ≤ hi) ∧ ∀ a ∈ r.2.2, ∃ c, lo ≤ c ∧ c ≤ hi ∧ ReadsCustom e b.settings a c := by
  have k := (session_keeps (hemmed_invariant he h0 hs) (fun _ => True) (fun _ _ _ _ => trivial) (fun _ _ _ _ => trivial)
    (fun _ _ => trivial) ms (fun _ _ => trivial) hb ⟨rfl, hc, by simp⟩ h).1
  exact ⟨k.custom, k.dabs⟩

/-- With dabs that show the custom input in their opacity, what a dab reads is seen. -/
theorem reads_seen {e : Env K R σ} {s : Load.Brush K} {a : Dab.Args K} {c p q : K} (hr : ∀ i, calculate (s sRadiusByRandom) i = 0)
    (hl : (s sOpaqueLinearize).base = 0) (ho : ∀ i, calculate (s sOpaque) i = 1)
    (hq : ∀ i, calculate (s sOpaqueMultiply) i = p + q * i iCustom) (h : ReadsCustom e s a c) :
    a.opaque' = max 0 (min 1 (p + q * c)) := by
  obtain ⟨i, h1, h2⟩ := h
  rw [h2.opacity hr hl, ho, hq, h1, max_eq_right zero_le_one, one_mul]

/-- No slowness: from the second step on the custom input is what is asked for. -/
theorem stepped_at_once (e : Env K R σ) {T : K} (hT : T ≤ 1 / 1000) (v c : K) (k : Nat) : stepped e T v c (k + 1) = v := by
  unfold stepped leftOver
  rw [if_pos hT, zero_pow (Nat.succ_ne_zero k)]
  ring

end

namespace Demo

/-- A brush that asks for a custom input of 1 with the slowness `T`. The opacity of its dabs is 1/4 and half the custom input. -/
def customBrush (T : ℚ) : Brush ℚ Nat :=
  let b := set (set (set (set brush sCustomInput 1) sCustomInputSlowness T) sOpaque 1) sOpaqueLinearize 0
  { b with settings := fun i => if i = sOpaqueMultiply then customCurve (1 / 4) (1 / 2) else b.settings i, resetRequested := false }


theorem customBrush_midst (T : ℚ) : Midst (customBrush T).settings (customBrush T) := by
  refine ⟨⟨⟨?_, ?_⟩, ?_, ?_, ?_⟩, rfl, rfl⟩
  · exact le_refl (0 : ℚ)
  · exact zero_lt_one
  · rfl
  · show (0 : ℚ) ≤ _; norm_num
  · exact le_refl (0 : ℚ)

theorem customBrush_asks (T : ℚ) : AsksCustom (customBrush T).settings 1 T := by
  refine ⟨fun _ => rfl, fun _ => rfl, fun i => ?_⟩
  show ¬ ((settings sSmudgeLength).base < 1 ∧ ((settings sSmudge).base ≠ 0 ∨ isConstant (settings sSmudge) = false))
  decide +kernel

/-- The opacity shows what the dabs of this brush read. -/
theorem customBrush_shows {T c : ℚ} {a : Dab.Args ℚ} (h : ReadsCustom env (customBrush T).settings a c) :
    a.opaque' = max 0 (min 1 (1 / 4 + 1 / 2 * c)) :=
  reads_seen (fun _ => rfl) rfl (fun _ => rfl) (fun i => by
    show calculate (customCurve (1 / 4) (1 / 2)) i = _
    exact customCurve_value (by norm_num) i) h

/-- Each step takes half of the way that is left: 1/2, 3/4, 7/8, 15/16. -/
theorem customBrush_glides :
    look (fun r => r.2.map fun a => (a.x, a.opaque')) (strokes env 100 (customBrush (1 / 10)) []
      [motion 0 0 (1 / 2) (1 / 10), motion 6 0 (1 / 2) (3 / 40)]) =
      some [(3 / 2, 1 / 2), (3, 5 / 8), (9 / 2, 11 / 16), (6, 23 / 32)] := by decide +kernel

/-- The hypotheses hold for it. -/
example {fuel : Nat} {r : Brush ℚ Nat × (List (Dab.Args ℚ) × List (Dab.Args ℚ))}
    (h : strokes (recordDabs env) fuel (customBrush (1 / 10)) ([], []) [motion 0 0 (1 / 2) (1 / 10), motion 6 0 (1 / 2) (3 / 40)] = .ok r) :
    r.1.st.customInput = 1 - (1 / 2) ^ (r.2.2.length + 2) := by
  obtain ⟨parts, h1, -, -, h2⟩ := custom_follows_partial _ (customBrush_midst _) (customBrush_asks _)
    (by intro m hm; simp only [List.mem_cons, List.not_mem_nil, or_false] at hm
        rcases hm with rfl | rfl <;> (simp only [motion]; norm_num)) h
  rw [h2, h1]
  have e1 : leftOver env (1 / 10 : ℚ) (1 / 10) = 1 / 2 := by decide +kernel
  have e2 : (customBrush (1 / 10)).st.customInput = 0 := rfl
  unfold stepped
  rw [e1, e2]
  simp only [List.nil_append, List.length_cons, List.length_nil]
  ring

/-- **C118** (against the property). The same movement with the same dabs, reported in three events instead of one: the dabs read
other values, although the custom input should follow with the dabs only. -/
theorem events_move_custom :
    look (fun r => r.2.map fun a => (a.x, a.opaque')) (strokes env 100 (customBrush (1 / 10)) []
      [motion 0 0 (1 / 2) (1 / 10), motion 2 0 (1 / 2) (1 / 40), motion 4 0 (1 / 2) (1 / 40), motion 6 0 (1 / 2) (1 / 40)]) =
      some [(3 / 2, 1 / 2), (3, 11 / 16), (9 / 2, 47 / 64), (6, 95 / 128)] := by decide +kernel

/-- A brush without slowness, whose custom input is the pressure. -/
def pressedBrush : Brush ℚ Nat :=
  { customBrush 0 with settings := fun i => if i = sCustomInput then showing iPressure else (customBrush 0).settings i }

/-- **C118** (against the property). Without slowness the changes should apply at once. The pressures at the four dabs are 1/4, 1/2, 3/4
and 1, so the opacities should be 3/8, 1/2, 5/8 and 3/4; they come one dab late. -/
theorem custom_comes_late :
    look (fun r => r.2.map fun a => (a.x, a.opaque')) (strokes env 100 pressedBrush []
      [motion 0 0 0 (1 / 10), motion 6 0 1 (3 / 40)]) =
      some [(3 / 2, 1 / 4), (3, 3 / 8), (9 / 2, 1 / 2), (6, 5 / 8)] := by decide +kernel

/-- The hypotheses about the range hold: the custom input is asked to be 1 and starts at 0. -/
example (T : ℚ) : Underway (customBrush T) ∧ AsksBetween (customBrush T).settings 0 1 ∧
    (0 ≤ (customBrush T).st.customInput ∧ (customBrush T).st.customInput ≤ 1) :=
  ⟨⟨⟨le_refl (0 : ℚ), zero_lt_one⟩, le_refl (0 : ℚ)⟩, fun _ => ⟨zero_le_one, le_refl (1 : ℚ)⟩, le_refl (0 : ℚ), zero_le_one⟩

end Demo

/-- The range in the real numbers. -/
example {R σ : Type} (next gauss : R → ℝ × R) (draw : σ → Dab.Args ℝ → Bool × σ) (getColor : σ → Int → Int → ℝ → ℝ → Color.Rgba ℝ × σ) :
    Decays (realEnv next gauss draw getColor) := realEnv_decays _ _ _ _

end Verif.Engine
