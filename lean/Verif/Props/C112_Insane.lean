import Verif.Model.Insane
import Mathlib.Tactic.Linarith

/-!
# C112: one bad value does not spoil what follows

A tablet driver can report a value that is not a number. Coordinates of that kind do no harm: all dabs stay at finite
places, with finite pressures. A pressure of that kind does: it stays in the brush until a reset, and every dab until
then reads a pressure that is not a number; an infinite pressure does the same one event later. A time of that kind
ends the brush, if it has slow tracking: all later dabs are at places that are not numbers, and not even a reset
helps, because the reset starts from the tracked position, which is computed from the old one.
-/

namespace Verif.Insane
open Num

/-! ## Specification -/

/-- An event that comes after less than the five seconds that start a new stroke. -/
def Prompt (e : Event) : Prop := lt (fin 5) e.dt = false

/-- The call goes on with the stroke: a motion event without a long pause. -/
def GoesOn : Call → Prop
  | .reset => False
  | .motion e => Prompt e

/-- The coordinates are numbers of which the library takes notice. -/
def GoodPlace (e : Event) : Prop := ∃ x y : ℚ, e.x = fin x ∧ e.y = fin y ∧ |x| < 10 ^ 8 ∧ |y| < 10 ^ 8

/-- What the rest of the engine decides about a step is a number. -/
def GoodStep (d : Step) : Prop := d.frac.isFin = true ∧ d.follow.isFin = true

/-- What the rest of the engine decides about an event are numbers. -/
def GoodRest (e : Event) : Prop :=
  (∀ d ∈ e.steps, GoodStep d) ∧ (∀ d ∈ e.earlySteps, GoodStep d) ∧ e.follow.isFin = true ∧ e.earlyFollow.isFin = true

/-- All but the coordinates are numbers. -/
def GoodApartFromPlace : Call → Prop
  | .reset => True
  | .motion e => e.pressure.isFin = true ∧ e.dt.isFin = true ∧ GoodRest e

/-- The dab is at a finite place and reads a finite pressure. -/
def GoodDab (d : Dab) : Prop := d.x.isFin = true ∧ d.y.isFin = true ∧ d.pressure.isFin = true

/-! ## Arithmetic -/

theorem add_nan (a : Num) : add a nan = nan := by cases a <;> rfl
theorem nan_add (a : Num) : add nan a = nan := by cases a <;> rfl
theorem sub_nan (a : Num) : sub a nan = nan := by cases a <;> rfl
theorem nan_sub (a : Num) : sub nan a = nan := by cases a <;> rfl
theorem mul_nan (a : Num) : mul a nan = nan := by cases a <;> rfl
theorem nan_mul (a : Num) : mul nan a = nan := by cases a <;> rfl
theorem nan_le (a : Num) : le nan a = false := by cases a <;> rfl
theorem lt_nan (a : Num) : lt a nan = false := by cases a <;> rfl

theorem isFin_add {a b : Num} (ha : a.isFin = true) (hb : b.isFin = true) : (add a b).isFin = true := by
  cases a <;> cases b <;> simp_all [isFin, add]

theorem isFin_neg {a : Num} (ha : a.isFin = true) : (neg a).isFin = true := by
  cases a <;> simp_all [isFin, neg]

theorem isFin_sub {a b : Num} (ha : a.isFin = true) (hb : b.isFin = true) : (sub a b).isFin = true :=
  isFin_add ha (isFin_neg hb)

theorem isFin_mul {a b : Num} (ha : a.isFin = true) (hb : b.isFin = true) : (mul a b).isFin = true := by
  cases a <;> cases b <;> simp_all [isFin, mul]

/-! ## A pressure that is not a number stays -/

theorem move_nan_pressure (s : State) (dx dy dp f : Num) (h : s.pressure = nan) :
    (move s dx dy dp f).pressure = nan := by
  simp [move, h, nan_add, nan_le]

theorem drawDabs_nan_pressure (x y p : Num) (ds : List Step) : ∀ s : State, s.pressure = nan →
    (drawDabs x y p s ds).1.pressure = nan ∧ ∀ d ∈ (drawDabs x y p s ds).2, d.pressure = nan := by
  induction ds with
  | nil => intro s h; exact ⟨h, by simp [drawDabs]⟩
  | cons d ds ih =>
    intro s h
    have h' := move_nan_pressure s (mul d.frac (sub x s.x)) (mul d.frac (sub y s.y))
      (mul d.frac (sub p s.pressure)) d.follow h
    obtain ⟨a, c⟩ := ih _ h'
    refine ⟨a, ?_⟩
    intro k hk
    rw [drawDabs] at hk
    rcases List.mem_cons.1 hk with rfl | hk
    · exact h'
    · exact c k hk

theorem move_requested (s : State) (dx dy dp f : Num) : (move s dx dy dp f).requested = s.requested := rfl

theorem drawDabs_requested (x y p : Num) (ds : List Step) : ∀ s : State,
    (drawDabs x y p s ds).1.requested = s.requested := by
  induction ds with
  | nil => intro s; rfl
  | cons d ds ih => intro s; rw [drawDabs]; exact ih _

theorem track_requested (b : Brush) (s : State) (x y p dt : Num) (st : List Step) (f : Num)
    (h : s.requested = false) : (track b s x y p dt st f).1.requested = false := by
  unfold track
  simp only
  split
  · rfl
  · rw [move_requested, drawDabs_requested]; exact h

theorem track_nan_pressure (b : Brush) (s : State) (x y p dt : Num) (st : List Step) (f : Num)
    (hr : s.requested = false) (hd : lt (fin 5) dt = false) (h : s.pressure = nan) :
    (track b s x y p dt st f).1.pressure = nan ∧ ∀ d ∈ (track b s x y p dt st f).2, d.pressure = nan := by
  unfold track
  simp only [hr, hd, Bool.or_self, Bool.false_eq_true, if_false]
  obtain ⟨a, c⟩ := drawDabs_nan_pressure (add s.x (mul (sub x s.x) (sub (fin 1) (expDecay b b.tracking (mul (fin 100) dt)))))
    (add s.y (mul (sub y s.y) (sub (fin 1) (expDecay b b.tracking (mul (fin 100) dt))))) p st s h
  exact ⟨move_nan_pressure _ _ _ _ _ a, c⟩

theorem prompt_dt {e : Event} (h : Prompt e) :
    lt (fin 5) (positive e.dt) = false := by
  unfold positive
  split
  · simp [lt]; norm_num
  · exact h

theorem afterChecks_nan_pressure (b : Brush) (s : State) (x y p : Num) (e : Event) (hr : s.requested = false)
    (hd : Prompt e) (h : s.pressure = nan) :
    (afterChecks b s x y p e).1.pressure = nan ∧ (afterChecks b s x y p e).1.requested = false ∧
      ∀ d ∈ (afterChecks b s x y p e).2, d.pressure = nan := by
  unfold afterChecks
  simp only [h, reduceCtorEq, decide_false, Bool.and_false, Bool.false_eq_true, if_false]
  obtain ⟨a, c⟩ := track_nan_pressure b s x y p _ e.steps e.follow hr (prompt_dt hd) h
  exact ⟨a, track_requested _ _ _ _ _ _ _ _ hr, c⟩

theorem event_nan_pressure (b : Brush) (s s' : State) (e : Event) (ds : List Dab) (hr : s.requested = false)
    (hd : Prompt e) (h : s.pressure = nan) (hs : event b s e = some (s', ds)) :
    s'.pressure = nan ∧ s'.requested = false ∧ ∀ d ∈ ds, d.pressure = nan := by
  unfold event at hs
  simp only at hs
  split at hs
  · have := afterChecks_nan_pressure b s (fin 0) (fin 0) (fin 0) e hr hd h
    rw [Option.some.inj hs] at this; exact this
  · split at hs
    · have := afterChecks_nan_pressure b s e.x e.y (if le e.pressure (fin 0) then fin 0 else e.pressure) e hr hd h
      rw [Option.some.inj hs] at this; exact this
    · simp at hs

theorem session_nan_pressure (b : Brush) (cs : List Call) : ∀ (s s' : State) (ds : List Dab), s.requested = false →
    s.pressure = nan → (∀ c ∈ cs, GoesOn c) → session b s cs = some (s', ds) →
    s'.pressure = nan ∧ ∀ d ∈ ds, d.pressure = nan := by
  induction cs with
  | nil =>
    intro s s' ds hr h hc hs
    obtain ⟨rfl, rfl⟩ := Prod.mk.inj (Option.some.inj hs)
    exact ⟨h, by simp⟩
  | cons c cs ih =>
    intro s s' ds hr h hc hs
    rw [session] at hs
    cases c with
    | reset => exact False.elim (hc .reset (by simp))
    | motion e =>
      have he : Prompt e := hc (.motion e) (by simp)
      rcases h1 : call b s (.motion e) with _ | ⟨s1, d1⟩
      · rw [h1] at hs; simp at hs
      · rw [h1] at hs
        simp only at hs
        obtain ⟨a, r, k⟩ := event_nan_pressure b s s1 e d1 hr he h h1
        rcases h2 : session b s1 cs with _ | ⟨s2, d2⟩
        · rw [h2] at hs; simp at hs
        · rw [h2] at hs
          obtain ⟨rfl, rfl⟩ := Prod.mk.inj (Option.some.inj hs)
          obtain ⟨a2, k2⟩ := ih s1 _ d2 r a (fun c hc' => hc c (by simp [hc'])) h2
          refine ⟨a2, fun d hd => ?_⟩
          rcases List.mem_append.1 hd with hd | hd
          · exact k d hd
          · exact k2 d hd

theorem good_not_insane {e : Event} (h : GoodPlace e) : insane e.x e.y = false ∧ allowed e.x e.y = true := by
  obtain ⟨x, y, hx, hy, ax, ay⟩ := h
  rw [abs_lt] at ax ay
  rw [hx, hy]
  constructor
  · simp only [insane, isFin, lt, Bool.not_true, Bool.or_self, Bool.false_or, Bool.or_eq_false_iff, decide_eq_false_iff_not,
      not_lt]
    refine ⟨⟨⟨?_, ?_⟩, ?_⟩, ?_⟩ <;> norm_num at * <;> linarith [ax.1, ax.2, ay.1, ay.2]
  · simp only [allowed, lt, Bool.and_eq_true, decide_eq_true_eq]
    exact ⟨⟨⟨ax.2, ay.2⟩, ax.1⟩, ay.1⟩

theorem track_pressure (b : Brush) (s : State) (x y p dt : Num) (st : List Step) (f : Num)
    (hr : s.requested = false) (hd : lt (fin 5) dt = false) : ∃ q : Num,
    (track b s x y p dt st f).1.pressure =
      (if le (add q (sub p q)) (fin 0) then fin 0 else add q (sub p q)) := by
  unfold track
  simp only [hr, hd, Bool.or_self, Bool.false_eq_true, if_false]
  exact ⟨_, rfl⟩

/-- The same after an event with whatever came before. -/
theorem afterChecks_pressure (b : Brush) (s : State) (x y p : Num) (e : Event) (hr : s.requested = false)
    (hd : Prompt e) : (afterChecks b s x y p e).1.requested = false ∧ ∃ q : Num,
    (afterChecks b s x y p e).1.pressure =
      (if le (add q (sub p q)) (fin 0) then fin 0 else add q (sub p q)) := by
  unfold afterChecks
  simp only
  split
  · have h1 : lt (fin 5) (fin (1 / 10000)) = false := by simp [lt]; norm_num
    exact ⟨track_requested _ _ _ _ _ _ _ _ (track_requested _ _ _ _ _ _ _ _ hr),
      track_pressure b _ x y p _ e.steps e.follow (track_requested _ _ _ _ _ _ _ _ hr) h1⟩
  · exact ⟨track_requested _ _ _ _ _ _ _ _ hr, track_pressure b s x y p _ e.steps e.follow hr (prompt_dt hd)⟩

/-- **C112, refuted for the pressure.** After one event with a pressure that is not a number, every dab of the stroke
reads a pressure that is not a number, whatever the following events report, until there is a reset or a pause of
more than five seconds. -/
theorem one_bad_pressure_spoils_the_stroke (b : Brush) (s s₁ s₂ : State) (e : Event) (cs : List Call) (ds₁ ds₂ : List Dab)
    (hr : s.requested = false) (hg : GoodPlace e) (hd : Prompt e) (hp : e.pressure = nan)
    (hc : ∀ c ∈ cs, GoesOn c) (h₁ : call b s (.motion e) = some (s₁, ds₁)) (h₂ : session b s₁ cs = some (s₂, ds₂)) :
    s₂.pressure = nan ∧ ∀ d ∈ ds₂, d.pressure = nan := by
  obtain ⟨g1, g2⟩ := good_not_insane hg
  simp only [call, event, g1, g2, hp, nan_le, Bool.false_eq_true, if_false, if_true] at h₁
  obtain ⟨r, q, hq⟩ := afterChecks_pressure b s e.x e.y nan e hr hd
  rw [Option.some.inj h₁] at r hq
  simp only [nan_sub, add_nan, nan_le, Bool.false_eq_true, if_false] at hq
  exact session_nan_pressure b cs s₁ s₂ ds₂ r hq hc h₂

/-- **C112, refuted for an infinite pressure.** After an event with infinite pressure and one more event with any
finite pressure, the same holds. -/
theorem infinite_pressure_spoils_the_stroke (b : Brush) (s s₁ s₂ s₃ : State) (e e' : Event) (cs : List Call)
    (ds₁ ds₂ ds₃ : List Dab) (hr : s.requested = false) (hg : GoodPlace e) (hd : Prompt e) (hp : e.pressure = pinf)
    (hg' : GoodPlace e') (hd' : Prompt e') (hp' : e'.pressure.isFin = true)
    (hc : ∀ c ∈ cs, GoesOn c) (h₁ : call b s (.motion e) = some (s₁, ds₁))
    (h₂ : call b s₁ (.motion e') = some (s₂, ds₂)) (h₃ : session b s₂ cs = some (s₃, ds₃)) :
    s₃.pressure = nan ∧ ∀ d ∈ ds₃, d.pressure = nan := by
  have stays : ∀ (x y p : Num) (ds : List Step) (s : State), (s.pressure = nan ∨ s.pressure = pinf) →
      ((drawDabs x y p s ds).1.pressure = nan ∨ (drawDabs x y p s ds).1.pressure = pinf) := by
    intro x y p ds
    induction ds with
    | nil => intro s h; exact h
    | cons d ds ih =>
      intro s h
      rw [drawDabs]
      apply ih
      simp only [move]
      rcases h with h | h <;> rw [h]
      · simp [nan_add, nan_le]
      · generalize mul d.frac (sub p pinf) = z
        cases z <;> simp [add, le]
  obtain ⟨g1, g2⟩ := good_not_insane hg
  simp only [call, event, g1, g2, hp, le, Bool.false_eq_true, if_false, if_true] at h₁
  obtain ⟨r, q, hq⟩ := afterChecks_pressure b s e.x e.y pinf e hr hd
  rw [Option.some.inj h₁] at r hq
  have h1 : s₁.pressure = nan ∨ s₁.pressure = pinf := by
    rw [show s₁.pressure = _ from hq]
    cases q <;> simp [add, sub, neg, le]
  obtain ⟨k1, k2⟩ := good_not_insane hg'
  simp only [call, event, k1, k2, Bool.false_eq_true, if_false, if_true] at h₂
  generalize hw : (if le e'.pressure (fin 0) then fin 0 else e'.pressure) = w at h₂
  have fw : w.isFin = true := by
    rw [← hw]; split
    · rfl
    · exact hp'
  have n0 : decide (s₁.pressure = fin 0) = false := by rcases h1 with h | h <;> simp [h]
  unfold afterChecks at h₂
  simp only [n0, Bool.and_false, Bool.false_eq_true, if_false] at h₂
  unfold track at h₂
  have r' : s₁.requested = false := r
  simp only [prompt_dt hd', r', Bool.or_self, Bool.false_eq_true, if_false] at h₂
  obtain ⟨e1, -⟩ := Prod.mk.inj (Option.some.inj h₂)
  have h2 : s₂.requested = false := by rw [← e1, move_requested, drawDabs_requested]; exact r'
  have h3 : s₂.pressure = nan := by
    rw [← e1]
    simp only [move]
    rcases stays _ _ w e'.steps s₁ h1 with h | h <;> rw [h]
    · simp [nan_add, nan_le]
    · cases w <;> simp_all [isFin, add, sub, neg, le]
  exact session_nan_pressure b cs s₂ s₃ ds₃ h2 h3 hc h₃

/-! ## A time that is not a number -/

/-- The position is not a number. -/
def Lost (s : State) : Prop := s.x = nan ∧ s.y = nan

theorem drawDabs_lost (p : Num) (ds : List Step) : ∀ s : State, Lost s →
    Lost (drawDabs nan nan p s ds).1 ∧ ∀ d ∈ (drawDabs nan nan p s ds).2, d.x = nan ∧ d.y = nan := by
  induction ds with
  | nil => intro s h; exact ⟨h, by simp [drawDabs]⟩
  | cons d ds ih =>
    intro s h
    have hx : ∀ dx dy dp f, Lost (move s dx dy dp f) ∧ (move s dx dy dp f).actualX = nan ∧
        (move s dx dy dp f).actualY = nan := by
      intro dx dy dp f
      simp [Lost, move, h.1, h.2, nan_add, nan_sub, nan_mul, add_nan]
    obtain ⟨a, c⟩ := ih _ (hx (mul d.frac (sub nan s.x)) (mul d.frac (sub nan s.y))
      (mul d.frac (sub p s.pressure)) d.follow).1
    refine ⟨a, ?_⟩
    intro k hk
    rw [drawDabs] at hk
    rcases List.mem_cons.1 hk with rfl | hk
    · exact (hx (mul d.frac (sub nan s.x)) (mul d.frac (sub nan s.y)) (mul d.frac (sub p s.pressure)) d.follow).2
    · exact c k hk

theorem track_lost (b : Brush) (s : State) (x y p dt : Num) (st : List Step) (f : Num) (h : Lost s) :
    Lost (track b s x y p dt st f).1 ∧ ∀ d ∈ (track b s x y p dt st f).2, d.x = nan ∧ d.y = nan := by
  unfold track
  simp only [h.1, h.2, sub_nan, nan_add]
  split
  · exact ⟨⟨rfl, rfl⟩, by simp⟩
  · obtain ⟨a, c⟩ := drawDabs_lost p st s h
    exact ⟨⟨by simp [move, nan_sub, add_nan], by simp [move, nan_sub, add_nan]⟩, c⟩

theorem afterChecks_lost (b : Brush) (s : State) (x y p : Num) (e : Event) (h : Lost s) :
    Lost (afterChecks b s x y p e).1 ∧ ∀ d ∈ (afterChecks b s x y p e).2, d.x = nan ∧ d.y = nan := by
  unfold afterChecks
  simp only
  split
  · obtain ⟨a, c⟩ := track_lost b s x y (fin 0) (sub (positive e.dt)
      (fin (1 / 10000))) e.earlySteps e.earlyFollow h
    obtain ⟨a', c'⟩ := track_lost b _ x y p (fin (1 / 10000)) e.steps e.follow a
    refine ⟨a', fun d hd => ?_⟩
    rcases List.mem_append.1 hd with hd | hd
    · exact c d hd
    · exact c' d hd
  · exact track_lost b s x y p _ e.steps e.follow h

theorem session_lost (b : Brush) (cs : List Call) : ∀ (s s' : State) (ds : List Dab), Lost s →
    session b s cs = some (s', ds) → Lost s' ∧ ∀ d ∈ ds, d.x = nan ∧ d.y = nan := by
  induction cs with
  | nil =>
    intro s s' ds h hs
    obtain ⟨rfl, rfl⟩ := Prod.mk.inj (Option.some.inj hs)
    exact ⟨h, by simp⟩
  | cons c cs ih =>
    intro s s' ds h hs
    rw [session] at hs
    rcases h1 : call b s c with _ | ⟨s1, d1⟩
    · rw [h1] at hs; simp at hs
    · rw [h1] at hs
      simp only at hs
      have k : Lost s1 ∧ ∀ d ∈ d1, d.x = nan ∧ d.y = nan := by
        cases c with
        | reset =>
          obtain ⟨rfl, rfl⟩ := Prod.mk.inj (Option.some.inj h1)
          exact ⟨h, by simp⟩
        | motion e =>
          simp only [call, event] at h1
          split at h1
          · have := afterChecks_lost b s (fin 0) (fin 0) (fin 0) e h
            rw [Option.some.inj h1] at this; exact this
          · split at h1
            · have := afterChecks_lost b s e.x e.y (if le e.pressure (fin 0) then fin 0 else e.pressure) e h
              rw [Option.some.inj h1] at this; exact this
            · simp at h1
      rcases h2 : session b s1 cs with _ | ⟨s2, d2⟩
      · rw [h2] at hs; simp at hs
      · rw [h2] at hs
        obtain ⟨rfl, rfl⟩ := Prod.mk.inj (Option.some.inj hs)
        obtain ⟨a2, k2⟩ := ih s1 _ d2 k.1 h2
        refine ⟨a2, fun d hd => ?_⟩
        rcases List.mem_append.1 hd with hd | hd
        · exact k.2 d hd
        · exact k2 d hd

/-- **C112, refuted for the time.** After one event with a time that is not a number, a brush with slow tracking makes
no dab at a place that is a number any more, whatever is called later, resets and long pauses included. -/
theorem one_bad_time_ends_the_brush (b : Brush) (ht : 1 / 1000 < b.tracking) (hx : b.exp nan = nan)
    (s s₁ s₂ : State) (e : Event) (cs : List Call) (ds₁ ds₂ : List Dab) (hd : e.dt = nan)
    (h₁ : call b s (.motion e) = some (s₁, ds₁)) (h₂ : session b s₁ cs = some (s₂, ds₂)) :
    ∀ d ∈ ds₂, d.x = nan ∧ d.y = nan := by
  have key : ∀ x y p, Lost (afterChecks b s x y p e).1 := by
    intro x y p
    unfold afterChecks
    simp only [hd, positive, nan_le, lt_nan, Bool.false_and, Bool.false_eq_true, if_false]
    unfold track
    have hf : expDecay b b.tracking nan = nan := by
      rw [expDecay, if_neg (not_le.2 ht)]
      simp only [neg, nan_mul, hx]
    simp only [mul_nan, hf, sub_nan, add_nan]
    split
    · exact ⟨rfl, rfl⟩
    · exact ⟨by simp [move, nan_sub, add_nan], by simp [move, nan_sub, add_nan]⟩
  have k : Lost s₁ := by
    simp only [call, event] at h₁
    split at h₁
    · have := key (fin 0) (fin 0) (fin 0)
      rw [Option.some.inj h₁] at this; exact this
    · split at h₁
      · have := key e.x e.y (if le e.pressure (fin 0) then fin 0 else e.pressure)
        rw [Option.some.inj h₁] at this; exact this
      · simp at h₁
  exact (session_lost b cs s₁ s₂ ds₂ k h₂).2

/-! ## Coordinates that are not numbers -/

/-- All of the state are numbers. -/
def Sound (s : State) : Prop :=
  s.x.isFin = true ∧ s.y.isFin = true ∧ s.actualX.isFin = true ∧ s.actualY.isFin = true ∧ s.pressure.isFin = true

theorem isFin_floor {p : Num} (h : p.isFin = true) : (if le p (fin 0) then fin 0 else p).isFin = true := by
  split
  · rfl
  · exact h

theorem move_sound (s : State) (dx dy dp f : Num) (h : Sound s) (hx : dx.isFin = true) (hy : dy.isFin = true)
    (hp : dp.isFin = true) (hf : f.isFin = true) : Sound (move s dx dy dp f) := by
  obtain ⟨a, b, c, d, e⟩ := h
  have x1 := isFin_add a hx
  have y1 := isFin_add b hy
  exact ⟨x1, y1, isFin_add c (isFin_mul (isFin_sub x1 c) hf), isFin_add d (isFin_mul (isFin_sub y1 d) hf),
    isFin_floor (isFin_add e hp)⟩

theorem drawDabs_sound (x y p : Num) (hx : x.isFin = true) (hy : y.isFin = true) (hp : p.isFin = true)
    (ds : List Step) : ∀ s : State, Sound s → (∀ d ∈ ds, GoodStep d) →
    Sound (drawDabs x y p s ds).1 ∧ ∀ d ∈ (drawDabs x y p s ds).2, GoodDab d := by
  induction ds with
  | nil => intro s h _; exact ⟨h, by simp [drawDabs]⟩
  | cons d ds ih =>
    intro s h hg
    have g := hg d (by simp)
    have h' : Sound (move s (mul d.frac (sub x s.x)) (mul d.frac (sub y s.y))
        (mul d.frac (sub p s.pressure)) d.follow) :=
      move_sound s _ _ _ _ h (isFin_mul g.1 (isFin_sub hx h.1)) (isFin_mul g.1 (isFin_sub hy h.2.1))
        (isFin_mul g.1 (isFin_sub hp h.2.2.2.2)) g.2
    obtain ⟨a, c⟩ := ih _ h' (fun k hk => hg k (by simp [hk]))
    refine ⟨a, ?_⟩
    intro k hk
    rw [drawDabs] at hk
    rcases List.mem_cons.1 hk with rfl | hk
    · exact ⟨h'.2.2.1, h'.2.2.2.1, h'.2.2.2.2⟩
    · exact c k hk

theorem track_sound (b : Brush) (hb : ∀ z : Num, z.isFin = true → (b.exp z).isFin = true) (s : State)
    (x y p dt : Num) (st : List Step) (f : Num) (h : Sound s) (hx : x.isFin = true) (hy : y.isFin = true)
    (hp : p.isFin = true) (hd : dt.isFin = true) (hst : ∀ d ∈ st, GoodStep d) (hf : f.isFin = true) :
    Sound (track b s x y p dt st f).1 ∧ ∀ d ∈ (track b s x y p dt st f).2, GoodDab d := by
  have hfac : (sub (fin 1) (expDecay b b.tracking (mul (fin 100) dt))).isFin = true := by
    apply isFin_sub rfl
    unfold expDecay
    split
    · rfl
    · exact hb _ (isFin_mul (isFin_neg (isFin_mul rfl hd)) rfl)
  unfold track
  generalize sub (fin 1) (expDecay b b.tracking (mul (fin 100) dt)) = fac at hfac
  have x1 : (add s.x (mul (sub x s.x) fac)).isFin = true := isFin_add h.1 (isFin_mul (isFin_sub hx h.1) hfac)
  have y1 : (add s.y (mul (sub y s.y) fac)).isFin = true := isFin_add h.2.1 (isFin_mul (isFin_sub hy h.2.1) hfac)
  simp only
  split
  · exact ⟨⟨x1, y1, x1, y1, hp⟩, by simp⟩
  · obtain ⟨a, c⟩ := drawDabs_sound _ _ p x1 y1 hp st s h hst
    exact ⟨move_sound _ _ _ _ _ a (isFin_sub x1 a.1) (isFin_sub y1 a.2.1) (isFin_sub hp a.2.2.2.2) hf, c⟩

theorem afterChecks_sound (b : Brush) (hb : ∀ z : Num, z.isFin = true → (b.exp z).isFin = true) (s : State)
    (x y p : Num) (e : Event) (h : Sound s) (hx : x.isFin = true) (hy : y.isFin = true) (hp : p.isFin = true)
    (hd : e.dt.isFin = true) (hg : GoodRest e) :
    Sound (afterChecks b s x y p e).1 ∧ ∀ d ∈ (afterChecks b s x y p e).2, GoodDab d := by
  have hd' : (positive e.dt).isFin = true := by
    unfold positive
    split
    · rfl
    · exact hd
  unfold afterChecks
  simp only
  split
  · obtain ⟨a, c⟩ := track_sound b hb s x y (fin 0) _ e.earlySteps e.earlyFollow h hx hy rfl
      (isFin_sub hd' (rfl : (fin (1 / 10000)).isFin = true)) hg.2.1 hg.2.2.2
    obtain ⟨a', c'⟩ := track_sound b hb _ x y p (fin (1 / 10000)) e.steps e.follow a hx hy hp rfl hg.1 hg.2.2.1
    refine ⟨a', fun d hd => ?_⟩
    rcases List.mem_append.1 hd with hd | hd
    · exact c d hd
    · exact c' d hd
  · exact track_sound b hb s x y p _ e.steps e.follow h hx hy hp hd' hg.1 hg.2.2.1

theorem event_sound (b : Brush) (hb : ∀ z : Num, z.isFin = true → (b.exp z).isFin = true) (s s' : State)
    (e : Event) (ds : List Dab) (h : Sound s) (hp : e.pressure.isFin = true) (hd : e.dt.isFin = true)
    (hg : GoodRest e) (hs : event b s e = some (s', ds)) : Sound s' ∧ ∀ d ∈ ds, GoodDab d := by
  unfold event at hs
  simp only at hs
  split at hs
  · have := afterChecks_sound b hb s (fin 0) (fin 0) (fin 0) e h rfl rfl rfl hd hg
    rw [Option.some.inj hs] at this; exact this
  · rename_i hi
    have : e.x.isFin = true ∧ e.y.isFin = true := by
      simp only [insane, Bool.or_eq_true, not_or, Bool.not_eq_true', Bool.not_eq_false] at hi
      exact ⟨hi.1.1, hi.1.2⟩
    split at hs
    · have := afterChecks_sound b hb s e.x e.y (if le e.pressure (fin 0) then fin 0 else e.pressure) e h this.1 this.2
        (isFin_floor hp) hd hg
      rw [Option.some.inj hs] at this; exact this
    · simp at hs

theorem session_sound (b : Brush) (hb : ∀ z : Num, z.isFin = true → (b.exp z).isFin = true) (cs : List Call) :
    ∀ (s s' : State) (ds : List Dab), Sound s → (∀ c ∈ cs, GoodApartFromPlace c) → session b s cs = some (s', ds) →
    Sound s' ∧ ∀ d ∈ ds, GoodDab d := by
  induction cs with
  | nil =>
    intro s s' ds h _ hs
    obtain ⟨rfl, rfl⟩ := Prod.mk.inj (Option.some.inj hs)
    exact ⟨h, by simp⟩
  | cons c cs ih =>
    intro s s' ds h hc hs
    rw [session] at hs
    rcases h1 : call b s c with _ | ⟨s1, d1⟩
    · rw [h1] at hs; simp at hs
    · rw [h1] at hs
      simp only at hs
      have k : Sound s1 ∧ ∀ d ∈ d1, GoodDab d := by
        cases c with
        | reset =>
          obtain ⟨rfl, rfl⟩ := Prod.mk.inj (Option.some.inj h1)
          exact ⟨h, by simp⟩
        | motion e =>
          have g : GoodApartFromPlace (.motion e) := hc _ (by simp)
          exact event_sound b hb s s1 e d1 h g.1 g.2.1 g.2.2 h1
      rcases h2 : session b s1 cs with _ | ⟨s2, d2⟩
      · rw [h2] at hs; simp at hs
      · rw [h2] at hs
        obtain ⟨rfl, rfl⟩ := Prod.mk.inj (Option.some.inj hs)
        obtain ⟨a2, k2⟩ := ih s1 _ d2 k.1 (fun c hc' => hc c (by simp [hc'])) h2
        refine ⟨a2, fun d hd => ?_⟩
        rcases List.mem_append.1 hd with hd | hd
        · exact k.2 d hd
        · exact k2 d hd

/-- **C112, for coordinates.** In a session with a new brush in which coordinates may be infinite or not numbers, but
pressures and times are numbers, all dabs are at finite places and read finite pressures. -/
theorem bad_places_do_no_harm (b : Brush) (hb : ∀ z : Num, z.isFin = true → (b.exp z).isFin = true) (cs : List Call)
    (s : State) (ds : List Dab) (hc : ∀ c ∈ cs, GoodApartFromPlace c) (h : session b new cs = some (s, ds)) :
    ∀ d ∈ ds, GoodDab d :=
  (session_sound b hb cs new s ds ⟨rfl, rfl, rfl, rfl, rfl⟩ hc h).2

/-- **C112, a reset heals the pressure.** Whatever the brush went through, a reset and one more event with a finite
pressure leave it with a finite pressure. -/
theorem reset_heals_the_pressure (b : Brush) (s s' : State) (e : Event) (ds : List Dab) (hp : e.pressure.isFin = true)
    (hst : ∀ d ∈ e.steps, GoodStep d) (h : session b s [.reset, .motion e] = some (s', ds)) :
    s'.pressure.isFin = true := by
  have draws : ∀ (x y p : Num) (st : List Step) (s : State), p.isFin = true → s.pressure.isFin = true →
      (∀ d ∈ st, GoodStep d) → (drawDabs x y p s st).1.pressure.isFin = true := by
    intro x y p st
    induction st with
    | nil => intro s _ h _; exact h
    | cons d st ih =>
      intro s hp h hg
      rw [drawDabs]
      exact ih _ hp (isFin_floor (isFin_add h (isFin_mul (hg d (by simp)).1 (isFin_sub hp h))))
        (fun k hk => hg k (by simp [hk]))
  have tracks : ∀ (s : State) (x y p dt : Num) (st : List Step) (f : Num), p.isFin = true →
      (s.requested = true ∨ s.pressure.isFin = true) → (∀ d ∈ st, GoodStep d) ∨ s.requested = true →
      (track b s x y p dt st f).1.pressure.isFin = true := by
    intro s x y p dt st f hp h hg
    unfold track
    simp only
    split
    · exact hp
    · rename_i hn
      simp only [Bool.or_eq_true, not_or, Bool.not_eq_true] at hn
      have h' : s.pressure.isFin = true := by
        rcases h with h | h
        · rw [hn.2] at h; simp at h
        · exact h
      have hg' : ∀ d ∈ st, GoodStep d := by
        rcases hg with h | h
        · exact h
        · rw [hn.2] at h; simp at h
      have k := draws (add s.x (mul (sub x s.x) (sub (fin 1) (expDecay b b.tracking (mul (fin 100) dt)))))
        (add s.y (mul (sub y s.y) (sub (fin 1) (expDecay b b.tracking (mul (fin 100) dt))))) p st s hp h' hg'
      exact isFin_floor (isFin_add k (isFin_sub hp k))
  have after : ∀ (s : State) (x y p : Num), s.requested = true → p.isFin = true →
      (afterChecks b s x y p e).1.pressure.isFin = true := by
    intro s x y p hr hp
    unfold afterChecks
    simp only
    split
    · exact tracks _ x y p _ e.steps _ hp (.inr (tracks s x y (fin 0) _ e.earlySteps _ rfl (.inl hr) (.inr hr)))
        (.inl hst)
    · exact tracks s x y p _ e.steps _ hp (.inl hr) (.inr hr)
  simp only [session, call] at h
  rcases h1 : event b { s with requested := true } e with _ | ⟨s1, d1⟩
  · rw [h1] at h; simp at h
  · rw [h1] at h
    simp only [Option.some.injEq, Prod.mk.injEq] at h
    rw [← h.1]
    unfold event at h1
    simp only at h1
    split at h1
    · have := after { s with requested := true } (fin 0) (fin 0) (fin 0) rfl rfl
      rw [Option.some.inj h1] at this; exact this
    · split at h1
      · have := after { s with requested := true } e.x e.y (if le e.pressure (fin 0) then fin 0 else e.pressure) rfl
          (isFin_floor hp)
        rw [Option.some.inj h1] at this; exact this
      · simp at h1

/-! ## Examples -/

namespace Demo

/-- A brush with slow tracking, with a crude exponential. -/
def slow : Brush where
  tracking := 2
  exp
    | fin q => fin (1 / (1 + q ^ 2))
    | ninf => fin 0
    | z => z

/-- An event that makes two dabs, halfway and at the end. -/
def at_ (x y p dt : Num) : Call :=
  .motion ⟨x, y, p, dt, [⟨fin (1 / 2), fin 1⟩, ⟨fin 1, fin 1⟩], fin 1, [], fin 1⟩

/-- The pressures of the dabs of a session with a new brush. -/
def pressures (cs : List Call) : Option (List Num) := (session slow new cs).map fun r => r.2.map (·.pressure)

/-- The places of the dabs of a session with a new brush. -/
def places (cs : List Call) : Option (List Num) := (session slow new cs).map fun r => r.2.map (·.x)

/-- Ordinary events. -/
example : pressures [at_ (fin 0) (fin 0) (fin 0) (fin 1), at_ (fin 9) (fin 0) (fin 1) (fin (1 / 100)),
    at_ (fin 18) (fin 0) (fin (1 / 2)) (fin (1 / 100))] =
    some [fin (1 / 2), fin 1, fin (3 / 4), fin (1 / 2)] := by decide +kernel

/-- One pressure that is not a number; a later reset helps. -/
example : pressures [at_ (fin 0) (fin 0) (fin 0) (fin 1), at_ (fin 9) (fin 0) nan (fin (1 / 100)),
    at_ (fin 18) (fin 0) (fin (1 / 2)) (fin (1 / 100)), .reset, at_ (fin 0) (fin 0) (fin 1) (fin 1),
    at_ (fin 18) (fin 0) (fin (1 / 2)) (fin (1 / 100))] =
    some [nan, nan, nan, nan, fin (3 / 4), fin (1 / 2)] := by decide +kernel

/-- One time that is not a number; a reset does not help. -/
example : places [at_ (fin 0) (fin 0) (fin 0) (fin 1), at_ (fin 9) (fin 0) (fin 1) nan,
    at_ (fin 18) (fin 0) (fin (1 / 2)) (fin (1 / 100)), .reset, at_ (fin 0) (fin 0) (fin 1) (fin 1),
    at_ (fin 18) (fin 0) (fin (1 / 2)) (fin (1 / 100))] =
    some [nan, nan, nan, nan, nan, nan] := by decide +kernel

/-- Coordinates that are not numbers. -/
example : places [at_ nan (fin 0) (fin 0) (fin 1), at_ pinf nan (fin 1) (fin (1 / 100)),
    at_ (fin 18) (fin 0) (fin (1 / 2)) (fin (1 / 100))] = some [fin 0, fin 0, fin (9 / 5), fin (18 / 5)] := by
  decide +kernel

end Demo

end Verif.Insane
