import Verif.Lemmas.EngineLoop
import Verif.Props.C38_Buckets
import Verif.Props.C45_Split

/-! # Helper lemmas: which faults an event can have -/

namespace Verif.Engine
open Verif.Mask Verif.Color Verif.Spectral Verif.Map

/-- The result satisfies `P`, or the fault is among `F`. -/
def Safe {α : Type} (F : Fault → Prop) (P : α → Prop) : Except Fault α → Prop
  | .ok a => P a
  | .error f => F f

theorem Safe.bind {α β : Type} {F : Fault → Prop} {P : α → Prop} {Q : β → Prop} {x : Except Fault α}
    {f : α → Except Fault β} (hx : Safe F P x) (hf : ∀ a, P a → Safe F Q (f a)) : Safe F Q (x >>= f) := by
  cases x with
  | error e => exact hx
  | ok a => exact hf a hx

theorem Safe.mono {α : Type} {F G : Fault → Prop} {P Q : α → Prop} {x : Except Fault α} (hx : Safe F P x)
    (hF : ∀ f, F f → G f) (hP : ∀ a, P a → Q a) : Safe G Q x := by
  cases x with
  | error e => exact hF _ hx
  | ok a => exact hP _ hx

theorem Safe.ok {α : Type} {F : Fault → Prop} {P : α → Prop} {x : Except Fault α} {a : α} (h : Safe F P x)
    (e : x = .ok a) : P a := by subst e; exact h

theorem Safe.error {α : Type} {F : Fault → Prop} {P : α → Prop} {x : Except Fault α} {f : Fault} (h : Safe F P x)
    (e : x = .error f) : F f := by subst e; exact h

/-- Put what is known of a success into a safe result. -/
theorem Safe.with {α : Type} {F : Fault → Prop} {P Q : α → Prop} {x : Except Fault α} (h : Safe F P x)
    (hq : ∀ a, x = .ok a → Q a) : Safe F (fun a => P a ∧ Q a) x := by
  cases x with
  | error e => exact h
  | ok a => exact ⟨h, hq a rfl⟩

variable {K R σ : Type} [Field K] [LinearOrder K]

theorem fetchBucket_ok {b : Buckets K} (hb : Valid b) (h0 : b.num ≠ 0) (want : Int) :
    ∃ n : Nat, (n : Int) < b.num ∧ ∃ lo hi : Int,
      fetchBucket b want = (((9 * n : Nat) : Int), { b with minUsed := lo, maxUsed := hi }) ∧
      Valid { b with minUsed := lo, maxUsed := hi } := by
  have len := hb.len
  have used := hb.used
  have num := hb.num
  have hidx : ∃ n : Nat, (n : Int) < b.num ∧
      (if want > b.num - 1 then b.num - 1 else if want < 0 then 0 else want) = (n : Int) := by
    refine ⟨(if want > b.num - 1 then b.num - 1 else if want < 0 then 0 else want).toNat, ?_, ?_⟩ <;>
      split_ifs <;> omega
  obtain ⟨n, hn, hi⟩ := hidx
  refine ⟨n, hn, ?_⟩
  have hf : ∃ lo hi : Int, fetchBucket b want = (((9 * n : Nat) : Int), { b with minUsed := lo, maxUsed := hi }) ∧
      0 ≤ lo ∧ lo ≤ hi ∧ hi < b.num := by
    unfold fetchBucket
    rw [hi]
    dsimp only
    have e9 : (n : Int) * bucketSize = ((9 * n : Nat) : Int) := by
      show (n : Int) * 9 = _; push_cast; omega
    rw [e9]
    by_cases c1 : b.minUsed = -1 ∨ b.minUsed > n
    · by_cases c2 : b.maxUsed < n
      · exact ⟨n, n, by simp [c1, c2], by omega, by omega, by omega⟩
      · exact ⟨n, b.maxUsed, by simp [c1, c2], by omega, by omega, by omega⟩
    · by_cases c2 : b.maxUsed < n
      · exact ⟨b.minUsed, n, by simp [c1, c2], by omega, by omega, by omega⟩
      · exact ⟨b.minUsed, b.maxUsed, by simp [c1, c2], by omega, by omega, by omega⟩
  obtain ⟨lo, hi', ef, h1, h2, h3⟩ := hf
  exact ⟨lo, hi', ef, num, len, .inr (.inr ⟨h1, h2, h3⟩)⟩

theorem resetBuckets_ok {b : Buckets K} (hb : Valid b) : ∃ b', resetBuckets b = .ok b' ∧ Valid b' := by
  obtain ⟨b', e, hv, -⟩ := buckets_stay_in_bounds [BucketOp.reset] b hb (by intro o ho; cases List.mem_singleton.mp ho; trivial)
  unfold bucketRun at e
  obtain ⟨b1, e1, e2⟩ := bind_ok e
  cases e2
  exact ⟨_, e1, hv⟩

section
variable [FloorRing K]

/-- The position of a bucket that `fetchSmudge` returns can be read and written. -/
def PosOk (mem : List K) : Option Int → Prop
  | none => True
  | some o => ∃ n : Nat, o = ((n : Nat) : Int) ∧ n + 9 ≤ mem.length

theorem fetchSmudge_ok {b : Brush K R} (hb : Valid b.buckets) :
    Valid (fetchSmudge b).2.buckets ∧ PosOk (fetchSmudge b).2.buckets.mem (fetchSmudge b).1 ∧
      (fetchSmudge b).2.buckets.mem = b.buckets.mem := by
  unfold fetchSmudge
  split_ifs with h
  · exact ⟨hb, trivial, rfl⟩
  · rw [not_or] at h
    obtain ⟨n, hn, lo, hi, e, hv⟩ := fetchBucket_ok hb h.2 (roundHalf (b.vals sSmudgeBucket))
    rw [e]
    have := hb.len
    exact ⟨hv, ⟨9 * n, rfl, by simp only; omega⟩, rfl⟩

theorem loadSmudge_ok {b : Brush K R} {o : Option Int} (h : PosOk b.buckets.mem o) : ∃ v, loadSmudge b o = .ok v := by
  cases o with
  | none => exact ⟨_, rfl⟩
  | some o =>
    obtain ⟨n, rfl, hn⟩ := h
    exact ⟨_, readBucket_ok hn⟩

theorem storeSmudge_ok {b : Brush K R} (hb : Valid b.buckets) {o : Option Int} (h : PosOk b.buckets.mem o)
    (v : Bucket K) : ∃ b', storeSmudge b v o = .ok b' ∧ Valid b'.buckets := by
  cases o with
  | none => exact ⟨_, rfl, hb⟩
  | some o =>
    obtain ⟨n, rfl, hn⟩ := h
    refine ⟨_, ok_bind (writeBucket_ok hn v), hb.num, ?_, hb.used⟩
    simp only [setNine_length]; exact hb.len

/-- Whether the values of the settings make the engine sample the canvas. -/
def Samples (b : Brush K R) : Prop :=
  b.vals sSmudgeLength < 1 ∧ (b.vals sSmudge ≠ 0 ∨ isConstant (b.settings sSmudge) = false)

theorem smudgeStage_safe {e : Env K R σ} {b : Brush K R} (hb : Valid b.buckets) (surf : σ) (x y r : K) :
    Safe (fun f => f = .floatConv ∧ Samples b) (fun p : Bool × Brush K R × σ => Valid p.2.1.buckets)
      (smudgeStage e b surf x y r) := by
  unfold smudgeStage
  by_cases h : Samples b
  · have h' := h
    unfold Samples at h'
    rw [if_pos h']
    obtain ⟨k1, k2, -⟩ := fetchSmudge_ok hb
    obtain ⟨v, hv⟩ := loadSmudge_ok k2
    dsimp only
    rw [ok_bind hv]
    have conv : ∀ z : K, Safe (fun f => f = Fault.floatConv ∧ Samples b) (fun _ : Int => True) (Dab.toInt z) := by
      intro z
      unfold Dab.toInt
      dsimp only
      split_ifs <;> first | exact ⟨rfl, h⟩ | trivial
    refine (conv _).bind fun px _ => (conv _).bind fun py _ => ?_
    obtain ⟨b1, h1, h2⟩ := storeSmudge_ok k1 k2 (updateSmudge e (fetchSmudge b).2 surf v px py r).2.1
    rw [ok_bind h1]
    exact h2
  · have h' := h
    unfold Samples at h'
    rw [if_neg h']
    exact hb

theorem smudgeColor_safe {e : Env K R σ} {b : Brush K R} (hb : Valid b.buckets) (c : Rgb K) :
    Safe (fun _ => False) (fun p : K × Rgb K × Brush K R => Valid p.2.2.buckets) (smudgeColor e b c) := by
  unfold smudgeColor
  split_ifs
  · obtain ⟨k1, k2, -⟩ := fetchSmudge_ok hb
    obtain ⟨v, hv⟩ := loadSmudge_ok k2
    dsimp only
    rw [ok_bind hv]
    exact k1
  · exact hb

variable [IsStrictOrderedRing K]

theorem dabOpacity_safe {e : Env K R σ} {b : Brush K R} :
    Safe (fun f => f = .nonFinite ∧ b.baseval sOpaqueLinearize < 0) (fun _ : K => True) (dabOpacity e b) := by
  unfold dabOpacity
  dsimp only
  have hd : (1 : K) ≤ if (b.st.dabsPerActualRadius + b.st.dabsPerBasicRadius) * 2 < 1 then 1
      else (b.st.dabsPerActualRadius + b.st.dabsPerBasicRadius) * 2 := by
    split_ifs with h
    · exact le_refl _
    · exact not_lt.mp h
  generalize (if (b.st.dabsPerActualRadius + b.st.dabsPerBasicRadius) * 2 < 1 then 1
      else (b.st.dabsPerActualRadius + b.st.dabsPerBasicRadius) * 2 : K) = d at hd
  by_cases h0 : b.baseval sOpaqueLinearize = 0
  · rw [if_pos h0]; trivial
  · rw [if_neg h0]
    split_ifs with h1
    · refine ⟨rfl, ?_⟩
      by_contra hc
      rw [not_lt] at hc
      have := mul_nonneg hc (sub_nonneg.mpr hd)
      linarith
    · trivial

/-- The canvas position of a dab can be computed unless an offset by speed meets a view zoom of zero. -/
theorem dabPosition_safe {e : Env K R σ} {b : Brush K R} (hb : Valid b.buckets) :
    Safe (fun f => f = .nonFinite ∧ b.vals sOffsetBySpeed ≠ 0 ∧ b.st.viewzoom = 0)
      (fun p : K × K × Brush K R => Valid p.2.2.buckets) (dabPosition e b) := by
  unfold dabPosition
  dsimp only
  by_cases h : b.vals sOffsetBySpeed ≠ 0 ∧ b.st.viewzoom = 0
  · rw [if_pos h]; exact ⟨rfl, h⟩
  · rw [if_neg h]
    split_ifs <;> exact hb

/-- The faults one dab can have. -/
def DabFault (b : Brush K R) (f : Fault) : Prop :=
  (f = .floatConv ∧ Samples b) ∨ (f = .nonFinite ∧ b.baseval sOpaqueLinearize < 0) ∨
    (f = .nonFinite ∧ b.vals sOffsetBySpeed ≠ 0 ∧ b.st.viewzoom = 0)

theorem drawDab_safe {e : Env K R σ} {b : Brush K R} (hb : Valid b.buckets) (surf : σ) (lin : Bool) :
    Safe (DabFault b) (fun p : Bool × Brush K R × σ => Valid p.2.1.buckets) (drawDab e b surf lin) := by
  unfold drawDab
  refine (dabOpacity_safe.mono (fun f hf => .inr (.inl hf)) (fun _ h => h)).bind fun o _ => ?_
  refine (((dabPosition_safe hb).with (Q := fun p => Frame b p.2.2) (fun p hp => dabPosition_frame hp)).mono
    (fun f hf => .inr (.inr hf)) (fun _ h => h)).bind fun pos hpos => ?_
  obtain ⟨hp, hfr⟩ := hpos
  dsimp only
  have hr : Valid (dabRadius e pos.2.2 o).2.2.buckets := by
    unfold dabRadius
    dsimp only
    split_ifs <;> exact hp
  have hfr2 : Frame b (dabRadius e pos.2.2 o).2.2 := hfr.trans (dabRadius_frame e pos.2.2 o)
  refine ((smudgeStage_safe hr surf _ _ _).mono (fun f hf => .inl ⟨hf.1, ?_⟩) (fun _ h => h)).bind fun sm hsm => ?_
  · split_ifs
    · exact hsm
    · refine ((smudgeColor_safe hsm _).mono (fun f hf => hf.elim) (fun _ h => h)).bind fun col hcol => ?_
      exact hcol
  · have := hf.2
    unfold Samples at this ⊢
    rwa [hfr2.vals, hfr2.settings] at this

theorem update_safe {e : Env K R σ} (b : Brush K R) (s : Step K) :
    Safe (fun f => f = .nonFinite ∧ s.viewzoom ≤ 0 ∧ usesInput b.settings iViewzoom = true)
      (fun b' : Brush K R => b'.buckets = b.buckets ∧ b'.settings = b.settings ∧ b'.st.viewzoom = s.viewzoom ∧
        ∃ i : Inputs K, b'.vals = settingValues b.settings i) (update e b s) := by
  unfold update
  dsimp only
  by_cases h : s.viewzoom ≤ 0 ∧ usesInput b.settings iViewzoom = true
  · rw [if_pos h]; exact ⟨rfl, h⟩
  · rw [if_neg h]
    exact ⟨rfl, rfl, rfl, _, rfl⟩

/-- The settings never make the engine sample the canvas. -/
def NeverSamples (s : Load.Brush K) : Prop :=
  ∀ i : Nat → K, ¬ (calculate (s sSmudgeLength) i < 1 ∧ (calculate (s sSmudge) i ≠ 0 ∨ isConstant (s sSmudge) = false))

/-- The faults one turn of the loop can have: a position outside of the integers when sampling, a value that is
not finite because of a negative linearisation or because the view zoom is not positive. -/
def TurnFault (s : Load.Brush K) (zoom : K) (f : Fault) : Prop :=
  (f = .floatConv ∧ ¬ NeverSamples s) ∨ (f = .nonFinite ∧ ((s sOpaqueLinearize).base < 0 ∨ zoom ≤ 0))

theorem dabStep_safe {e : Env K R σ} {ev : Event K} {x y : K} {l : Loop K R σ} (hv : Valid l.b.buckets)
    (hz : l.todo ≠ 0) :
    Safe (TurnFault l.b.settings ev.viewzoom)
      (fun l' : Loop K R σ => Valid l'.b.buckets ∧ l'.b.settings = l.b.settings) (dabStep e ev x y l) := by
  unfold dabStep
  dsimp only
  rw [if_neg hz]
  refine ((update_safe _ _).mono (fun f hf => .inr ⟨hf.1, .inr hf.2.1⟩) (fun _ h => h)).bind fun b1 hb1 => ?_
  obtain ⟨h1, h2, h3, i, h4⟩ := hb1
  have hv1 : Valid ({ b1 with st := { b1.st with flip := b1.st.flip * -1 } } : Brush K R).buckets := by
    show Valid b1.buckets
    rw [h1]; exact hv
  refine (((drawDab_safe hv1 l.surf ev.linear).with
    (Q := fun p => Frame ({ b1 with st := { b1.st with flip := b1.st.flip * -1 } } : Brush K R) p.2.1)
    (fun p hp => drawDab_frame hp)).mono (G := TurnFault l.b.settings ev.viewzoom) (fun f hf => ?_)
      (fun _ h => h)).bind fun p hp => ?_
  · rcases hf with ⟨hf, hs⟩ | ⟨hf, hs⟩ | ⟨hf, -, hs⟩
    · refine .inl ⟨hf, fun hn => ?_⟩
      unfold Samples at hs
      rw [show ({ b1 with st := { b1.st with flip := b1.st.flip * -1 } } : Brush K R).vals = _ from h4,
        show ({ b1 with st := { b1.st with flip := b1.st.flip * -1 } } : Brush K R).settings = _ from h2] at hs
      exact hn i.get hs
    · refine .inr ⟨hf, .inl ?_⟩
      unfold Brush.baseval at hs
      rwa [show ({ b1 with st := { b1.st with flip := b1.st.flip * -1 } } : Brush K R).settings = _ from h2] at hs
    · refine .inr ⟨hf, .inr ?_⟩
      have : ev.viewzoom = 0 := by rw [← hs]; exact h3.symm
      exact this.le
  · obtain ⟨q1, q2⟩ := hp
    refine ⟨q1, ?_⟩
    show p.2.1.settings = _
    rw [q2.settings]; exact h2

/-- The loop: the faults of a turn, or too little fuel. -/
theorem dabLoop_safe {e : Env K R σ} {ev : Event K} {x y : K} (fuel : Nat) : ∀ l : Loop K R σ, Valid l.b.buckets →
    0 ≤ l.moved → l.moved < 1 →
    Safe (fun f => f = .outOfFuel ∨ TurnFault l.b.settings ev.viewzoom f)
      (fun l' : Loop K R σ => Valid l'.b.buckets ∧ l'.b.settings = l.b.settings) (dabLoop e ev x y fuel l) := by
  induction fuel with
  | zero =>
    intro l hv _ _
    unfold dabLoop
    split_ifs
    · exact .inl rfl
    · exact ⟨hv, rfl⟩
  | succ fuel ih =>
    intro l hv h0 h1
    unfold dabLoop
    by_cases hc : l.moved + l.todo ≥ 1
    · rw [if_pos hc]
      have hz : l.todo ≠ 0 := by intro hz; rw [hz] at hc; linarith
      refine (((dabStep_safe hv hz).with (Q := fun l' => 0 ≤ l'.moved ∧ l'.moved < 1) ?_).mono
        (fun f hf => .inr hf) (fun _ h => h)).bind fun l1 hl1 => ?_
      · intro l' hl'
        obtain ⟨-, b1, p, b2, -, -, -, e1⟩ := dabStep_eq hl'
        rw [e1]
        simp only
        split_ifs
        · exact ⟨le_refl _, zero_lt_one⟩
        · exact ⟨h0, h1⟩
      · obtain ⟨⟨q1, q2⟩, q3, q4⟩ := hl1
        have := ih l1 q1 q3 q4
        rw [q2] at this
        exact this
    · rw [if_neg hc]; exact ⟨hv, rfl⟩

/-- A movement. -/
theorem moveTo_safe {e : Env K R σ} {fuel : Nat} {b : Brush K R} {surf : σ} {ev : Event K} {x y dt : K}
    (hv : Valid b.buckets) (hp : PendingOk b) :
    Safe (fun f => f = .outOfFuel ∨ TurnFault b.settings ev.viewzoom f)
      (fun r : Bool × Brush K R × σ => Valid r.2.1.buckets ∧ r.2.1.settings = b.settings)
      (moveTo e fuel b surf ev x y dt) := by
  unfold moveTo
  dsimp only
  have cb : (countDabs e b x y dt).2.buckets = b.buckets := by rw [countDabs_st]
  have cs : (countDabs e b x y dt).2.settings = b.settings := by rw [countDabs_st]
  have k := dabLoop_safe (e := e) (ev := ev) (x := x) (y := y) fuel
    { b := (countDabs e b x y dt).2, surf := surf, moved := b.st.partialDabs
      todo := (countDabs e b x y dt).1, dtimeLeft := dt, painted := .unknown } (by simp only [cb]; exact hv) hp.1 hp.2
  simp only [cs] at k
  refine k.bind fun l hl => ?_
  refine ((update_safe _ _).mono (G := fun f => f = .outOfFuel ∨ TurnFault b.settings ev.viewzoom f)
    (fun f hf => .inr (.inr ⟨hf.1, .inr hf.2.1⟩)) (fun _ h => h)).bind fun b1 hb1 => ?_
  show Valid (splitStroke _ _ _ _ _).2.buckets ∧ (splitStroke _ _ _ _ _).2.settings = _
  rw [splitStroke_eq]
  exact ⟨by show Valid b1.buckets; rw [hb1.1]; exact hl.1, by show b1.settings = _; rw [hb1.2.1]; exact hl.2⟩

/-- An event after the checks. -/
theorem strokeEvent_safe {e : Env K R σ} {fuel : Nat} {b : Brush K R} {surf : σ} {ev : Event K}
    (hv : Valid b.buckets) (hp : PendingOk b) :
    Safe (fun f => f = .outOfFuel ∨ TurnFault b.settings ev.viewzoom f)
      (fun r : Bool × Brush K R × σ => Valid r.2.1.buckets ∧ r.2.1.settings = b.settings)
      (strokeEvent e fuel b surf ev) := by
  unfold strokeEvent
  dsimp only
  have sk := skipStage_eq e b ev.x ev.y ev.dtime
  generalize skipStage e b ev.x ev.y ev.dtime = s at sk
  have cu := cursor_eq e s.1 ev.x ev.y s.2.1
  generalize cursor e s.1 ev.x ev.y s.2.1 = c at cu
  have hcb : c.2.2.buckets = b.buckets := by rw [cu, sk]
  have hcs : c.2.2.settings = b.settings := by rw [cu, sk]
  have hct : c.2.2.st = b.st := by rw [cu, sk]
  split_ifs
  · show Valid s.1.buckets ∧ s.1.settings = _
    rw [sk]; exact ⟨hv, rfl⟩
  · obtain ⟨bk, hbk, hvk⟩ := resetBuckets_ok (b := c.2.2.buckets) (by rw [hcb]; exact hv)
    unfold startOver brushReset
    rw [ok_bind hbk]
    exact ⟨hvk, hcs⟩
  · have := moveTo_safe (e := e) (fuel := fuel) (surf := surf) (ev := ev) (x := c.1) (y := c.2.1) (dt := s.2.1)
      (b := c.2.2) (by rw [hcb]; exact hv) (by unfold PendingOk; rw [hct]; exact hp)
    rw [hcs] at this
    exact this

end

end Verif.Engine
