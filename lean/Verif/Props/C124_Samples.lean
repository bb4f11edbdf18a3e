import Verif.Props.C122_Carry
import Verif.Lemmas.EngineSafe

/-!
# C124: how often a smudging brush looks at the canvas

Looking at the canvas is expensive. The smudge length multiplier makes it rarer: the brush looks at one dab in `N` and uses what it found
for the dabs in between.
-/

namespace Verif.Engine
open Verif.Mask Verif.Color Verif.Spectral Verif.Map

section
variable {K R σ : Type} [Field K] [LinearOrder K] [IsStrictOrderedRing K] [FloorRing K]

/-! ### Specification -/

/-- What was found is too old when it has faded below this, for the smudge length `u` and the multiplier `l`. -/
def fadeLimit (e : Env K R σ) (u l : K) : K := min 1 (e.pow (1 / 2 * max (1 / 100) u) l + 1 / 10 ^ 16)

/-- It fades by the smudge length at each dab; at the dab number `N` it is too old. -/
def FadesAfter (e : Env K R σ) (u l : K) (N : Nat) : Prop :=
  max (1 / 100) u ^ N < fadeLimit e u l ∧ ∀ k < N, fadeLimit e u l ≤ max (1 / 100) u ^ k

/-- A brush that smudges, with the smudge length `u` and the multiplier `l`, and draws every dab. -/
structure Looks (s : Load.Brush K) (u l : K) : Prop where
  length : ∀ i, calculate (s sSmudgeLength) i = u
  log : ∀ i, calculate (s sSmudgeLengthLog) i = l
  amount : ∀ i, calculate (s sSmudge) i ≠ 0
  transparency : ∀ i, calculate (s sSmudgeTransparency) i = 0

/-! ### One dab -/

theorem updateSmudge_looks {e : Env K R σ} {u l : K} {b : Brush K R} {surf : σ} {v : Bucket K} {px py : Int} {radius : K}
    (hlen : b.vals sSmudgeLength = u) (hlog : b.vals sSmudgeLengthLog = l) (ht : b.vals sSmudgeTransparency = 0) :
    ∃ r p, (updateSmudge e b surf v px py radius).1 = false ∧
      (updateSmudge e b surf v px py radius).2.2.1 =
        (if v.recentness * max (1 / 100) u < fadeLimit e u l then (e.getColor surf px py r p).2 else surf) ∧
      (updateSmudge e b surf v px py radius).2.1.recentness =
        (if v.recentness * max (1 / 100) u < fadeLimit e u l then 1 else v.recentness * max (1 / 100) u) := by
  refine ⟨clampK (radius * e.exp (b.vals sSmudgeRadiusLog)) (1 / 5) 1000, if legacySmudge b then -1 else b.vals sPaintMode, ?_⟩
  have hmax : maxC (1 / 100) u = max (1 / 100) u := by
    unfold maxC
    split_ifs with h1
    · exact (max_eq_left h1.le).symm
    · exact (max_eq_right (not_lt.mp h1)).symm
  have hmin : minC 1 (e.pow (1 / 2 * max (1 / 100) u) l + 1 / 10 ^ 16) = fadeLimit e u l := by
    unfold minC fadeLimit
    split_ifs with q
    · exact (min_eq_left q.le).symm
    · exact (min_eq_right (not_lt.mp q)).symm
  unfold updateSmudge
  dsimp only
  rw [hlen, hlog, ht, hmax, hmin]
  simp only [lt_irrefl, gt_iff_lt, neg_zero, false_and, or_self, and_false, if_false]
  generalize v.recentness * max (1 / 100) u = q
  generalize fadeLimit e u l = t
  generalize e.getColor surf px py (clampK (radius * e.exp (b.vals sSmudgeRadiusLog)) (1 / 5) 1000) _ = got
  by_cases hc : q < t
  · simp only [if_pos hc]
    split_ifs <;> exact ⟨rfl, rfl, rfl⟩
  · simp only [if_neg hc]
    split_ifs <;> exact ⟨rfl, rfl, rfl⟩

theorem drawDab_looks {e : Env K R σ} {b : Brush K R} {surf : (σ × List (Rgba K)) × List (Dab.Args K)} {lin : Bool}
    {p : Bool × Brush K R × ((σ × List (Rgba K)) × List (Dab.Args K))} {i : Nat → K} {u l : K} (hs : Looks b.settings u l) (hu1 : u < 1)
    (hw : b.buckets.mem = []) (hv : b.vals = fun id => calculate (b.settings id) i)
    (hd : drawDab (recordDabs (recordSamples e)) { b with st := { b.st with flip := b.st.flip * -1 } } surf lin = .ok p) :
    p.2.1.buckets.mem = [] ∧ (∃ a, p.2.2.2 = surf.2 ++ [a]) ∧
      p.2.1.st.smudge.recentness = (if b.st.smudge.recentness * max (1 / 100) u < fadeLimit e u l then 1 else
        b.st.smudge.recentness * max (1 / 100) u) ∧
      ∃ c, p.2.2.1.2 = if b.st.smudge.recentness * max (1 / 100) u < fadeLimit e u l then surf.1.2 ++ [c] else surf.1.2 := by
  obtain ⟨o, pos, sm, -, h2, h3, frs, h4⟩ := drawDab_cases hd
  have on1 := dabPosition_only h2
  have on2 := dabRadius_only (recordDabs (recordSamples e)) pos.2.2 o
  have nd := smudgeStage_noDabs h3
  have key : (dabRadius (recordDabs (recordSamples e)) pos.2.2 o).2.2.st.smudge = b.st.smudge ∧
      (dabRadius (recordDabs (recordSamples e)) pos.2.2 o).2.2.buckets.mem = [] ∧
      ∀ id, (dabRadius (recordDabs (recordSamples e)) pos.2.2 o).2.2.vals id = calculate (b.settings id) i := by
    rw [on2, on1]
    exact ⟨rfl, hw, fun id => by show b.vals id = _; rw [hv]⟩
  obtain ⟨ks, km, kv⟩ := key
  unfold smudgeStage at h3
  rw [if_pos ⟨by rw [kv, hs.length]; exact hu1, .inl (by rw [kv]; exact hs.amount i)⟩] at h3
  generalize (dabRadius (recordDabs (recordSamples e)) pos.2.2 o).2.2 = b0 at *
  have hfe : fetchSmudge b0 = (none, b0) := by
    unfold fetchSmudge
    rw [if_pos (.inl (by rw [km]; rfl))]
  rw [hfe] at h3
  dsimp only at h3
  obtain ⟨v, h5, h3⟩ := bind_ok h3
  obtain ⟨px, -, h3⟩ := bind_ok h3
  obtain ⟨py, -, h3⟩ := bind_ok h3
  obtain ⟨b2, h6, h3⟩ := bind_ok h3
  have e1 : b0.st.smudge = v := Except.ok.inj h5
  have e2 := Except.ok.inj h6
  have e3 := Except.ok.inj h3
  obtain ⟨r', p', k1, k2, k3⟩ := updateSmudge_looks (e := recordDabs (recordSamples e)) (surf := surf) (v := v) (px := px) (py := py)
    (radius := (dabRadius (recordDabs (recordSamples e)) pos.2.2 o).1) (b := b0) (u := u) (l := l) (by rw [kv, hs.length])
    (by rw [kv, hs.log]) (by rw [kv, hs.transparency])
  have hvv : v.recentness = b.st.smudge.recentness := by rw [← e1, ks]
  rw [hvv] at k2 k3
  have hlim : fadeLimit (recordDabs (recordSamples e)) u l = fadeLimit e u l := rfl
  rw [hlim] at k2 k3
  have f1 : sm.1 = false := by rw [← e3]; exact k1
  have m1 : sm.2.1.buckets.mem = [] := by rw [← e3, ← e2]; exact km
  have r1 : sm.2.1.st.smudge.recentness = (if b.st.smudge.recentness * max (1 / 100) u < fadeLimit e u l then 1 else
      b.st.smudge.recentness * max (1 / 100) u) := by rw [← e3, ← e2]; exact k3
  have s1 : sm.2.2 = (if b.st.smudge.recentness * max (1 / 100) u < fadeLimit e u l then
      ((recordDabs (recordSamples e)).getColor surf px py r' p').2 else surf) := by rw [← e3]; exact k2
  rw [f1] at h4
  simp only [Bool.false_eq_true, false_and, false_or, true_and] at h4
  obtain ⟨col, h7, -, h8⟩ := h4
  have hcol : col.2.2.buckets.mem = [] ∧ col.2.2.st = sm.2.1.st := by
    unfold smudgeColor at h7
    have hfe : fetchSmudge sm.2.1 = (none, sm.2.1) := by
      unfold fetchSmudge
      rw [if_pos (.inl (by rw [m1]; rfl))]
    rw [hfe] at h7
    dsimp only at h7
    by_cases q : sm.2.1.vals sSmudge > 0
    · rw [if_pos q] at h7
      obtain ⟨w, -, h7⟩ := bind_ok h7
      rw [← Except.ok.inj h7]
      exact ⟨m1, rfl⟩
    · rw [if_neg q] at h7
      rw [← Except.ok.inj h7]
      exact ⟨m1, rfl⟩
  refine ⟨by rw [h8]; exact hcol.1, ?_, by rw [h8]; show col.2.2.st.smudge.recentness = _; rw [hcol.2]; exact r1, ?_⟩
  · rw [h8]
    exact ⟨_, congrArg (· ++ [_]) nd⟩
  · refine ⟨(e.getColor surf.1.1 px py r' p').1, ?_⟩
    rw [h8]
    show sm.2.2.1.2 = _
    rw [s1]
    split_ifs <;> rfl

/-! ### Sessions -/

/-- The brush has drawn `n` dabs since its smudge memory was empty. -/
def Recent (u : K) (N n : Nat) (x : K) : Prop := (n = 0 ∧ x = 0) ∨ (n ≠ 0 ∧ x = max (1 / 100) u ^ ((n - 1) % N))

/-- Dabs and looks at the canvas since a moment when the smudge memory was empty. -/
def Sampling (s : Load.Brush K) (u : K) (N : Nat) (surf0 : (σ × List (Rgba K)) × List (Dab.Args K)) (b : Brush K R)
    (surf : (σ × List (Rgba K)) × List (Dab.Args K)) : Prop :=
  b.settings = s ∧ b.buckets.mem = [] ∧ ∃ found dabs, surf.1.2 = surf0.1.2 ++ found ∧ surf.2 = surf0.2 ++ dabs ∧
    found.length = (dabs.length + N - 1) / N ∧ Recent u N dabs.length b.st.smudge.recentness

omit [FloorRing K] in
theorem fadeLimit_pos {e : Env K R σ} {u l : K} (hpow : ∀ a, 0 ≤ a → a ≤ 1 → 0 ≤ e.pow a l) (hu1 : u < 1) : 0 < fadeLimit e u l := by
  have m0 : (0 : K) < max (1 / 100) u := lt_of_lt_of_le (by norm_num) (le_max_left _ _)
  have m1 : max (1 / 100) u < 1 := max_lt (by norm_num) hu1
  have := hpow (1 / 2 * max (1 / 100) u) (by linarith) (by linarith)
  unfold fadeLimit
  refine lt_min one_pos ?_
  have : (0 : K) < 1 / 10 ^ 16 := by norm_num
  linarith

theorem Recent.step {e : Env K R σ} {u l : K} {N n : Nat} {x : K} (hN : FadesAfter e u l N) (hN0 : 0 < N) (hlim : 0 < fadeLimit e u l)
    (h : Recent u N n x) :
    Recent u N (n + 1) (if x * max (1 / 100) u < fadeLimit e u l then 1 else x * max (1 / 100) u) ∧
      (x * max (1 / 100) u < fadeLimit e u l ↔ N ∣ n) := by
  rcases h with ⟨h0, hx⟩ | ⟨h0, hx⟩
  · rw [hx, zero_mul, if_pos hlim, h0]
    refine ⟨.inr ⟨by omega, ?_⟩, fun _ => dvd_zero N, fun _ => hlim⟩
    simp
  · obtain ⟨m, rfl⟩ : ∃ m, n = m + 1 := ⟨n - 1, by omega⟩
    simp only [Nat.add_sub_cancel] at hx
    have hk : m % N < N := Nat.mod_lt _ hN0
    rw [hx, ← pow_succ]
    have hdm : m + 1 = N * (m / N) + (m % N + 1) := by rw [← add_assoc, Nat.div_add_mod]
    by_cases hd : N ∣ m + 1
    · have hm : m % N + 1 = N := by
        have h1 : N ∣ m % N + 1 := by
          rw [hdm] at hd
          exact (Nat.dvd_add_right (dvd_mul_right N _)).mp hd
        have := Nat.le_of_dvd (by omega) h1
        omega
      rw [hm, if_pos hN.1]
      refine ⟨.inr ⟨by omega, ?_⟩, fun _ => hd, fun _ => hN.1⟩
      rw [Nat.add_sub_cancel, Nat.mod_eq_zero_of_dvd hd, pow_zero]
    · have hm : m % N + 1 < N := by
        rcases Nat.lt_or_ge (m % N + 1) N with q | q
        · exact q
        · exfalso
          apply hd
          rw [hdm, show m % N + 1 = N by omega]
          exact dvd_add (dvd_mul_right N _) (dvd_refl N)
      have hl := hN.2 _ hm
      rw [if_neg (not_lt.mpr hl)]
      refine ⟨.inr ⟨by omega, ?_⟩, fun q => absurd q (not_lt.mpr hl), fun q => absurd q hd⟩
      rw [Nat.add_sub_cancel, Nat.add_mod, Nat.mod_eq_of_lt (show 1 < N by omega), Nat.mod_eq_of_lt hm]

theorem dabStep_looks {e : Env K R σ} {s : Load.Brush K} {u l : K} {N : Nat} (hs : Looks s u l) (hu1 : u < 1) (hN : FadesAfter e u l N)
    (hN0 : 0 < N) (hlim : 0 < fadeLimit e u l) {surf0 : (σ × List (Rgba K)) × List (Dab.Args K)}
    {ev : Event K} {x y : K} {t t' : Loop K R ((σ × List (Rgba K)) × List (Dab.Args K))} (hl : Sampling s u N surf0 t.b t.surf)
    (h : dabStep (recordDabs (recordSamples e)) ev x y t = .ok t') : Sampling s u N surf0 t'.b t'.surf := by
  obtain ⟨hset, hbu, found, dabs, h1, h2, h3, h4⟩ := hl
  obtain ⟨-, b1, p, b2, hu, hd, hb2, e1⟩ := dabStep_eq h
  have hb1 := update_eq hu
  have set1 : b1.settings = s := by rw [hb1]; exact hset
  have v1 : b1.st.smudge = t.b.st.smudge := by rw [hb1]; rfl
  have fr := drawDab_frame hd
  obtain ⟨k1, ⟨a, k2⟩, k3, c, k4⟩ := drawDab_looks (b := b1) (u := u) (l := l)
    (i := (inputsOf (recordDabs (recordSamples e)) t.b (moveStates (recordDabs (recordSamples e)) t.b _)).get)
    (by rw [set1]; exact hs) hu1 (by rw [hb1]; exact hbu) (by rw [hb1]; rfl) hd
  obtain ⟨q1, q2⟩ := h4.step hN hN0 hlim
  rw [v1] at k3 k4
  rw [e1, hb2]
  refine ⟨?_, ?_, found ++ (if t.b.st.smudge.recentness * max (1 / 100) u < fadeLimit e u l then [c] else []), dabs ++ [a], ?_, ?_, ?_, ?_⟩
  · show p.2.1.settings = s
    rw [fr.settings]; exact set1
  · dsimp only; rw [countDabs_st]; exact k1
  · dsimp only
    rw [k4]
    split_ifs
    · rw [h1, List.append_assoc]
    · rw [h1, List.append_nil]
  · dsimp only; rw [k2, h2, List.append_assoc]
  · rw [List.length_append, List.length_append, List.length_singleton, h3,
      show dabs.length + 1 + N - 1 = dabs.length + N - 1 + 1 by omega, Nat.succ_div]
    have hiff : N ∣ dabs.length + N - 1 + 1 ↔ N ∣ dabs.length := by
      rw [show dabs.length + N - 1 + 1 = dabs.length + N by omega]
      exact Nat.dvd_add_self_right
    by_cases hc : t.b.st.smudge.recentness * max (1 / 100) u < fadeLimit e u l
    · rw [if_pos hc, if_pos (hiff.mpr (q2.mp hc))]
      rfl
    · rw [if_neg hc, if_neg (fun w => hc (q2.mpr (hiff.mp w)))]
      rfl
  · rw [List.length_append, List.length_singleton]
    dsimp only
    rw [countDabs_st]
    show Recent u N _ p.2.1.st.smudge.recentness
    rw [k3]
    exact q1

/-- The facts between events. -/
theorem moveTo_looks {e : Env K R σ} {s : Load.Brush K} {u l : K} {N : Nat} (hs : Looks s u l) (hu1 : u < 1) (hN : FadesAfter e u l N)
    (hN0 : 0 < N) (hlim : 0 < fadeLimit e u l) {surf0 : (σ × List (Rgba K)) × List (Dab.Args K)} {fuel : Nat} {ev : Event K} {x y dt : K}
    {b : Brush K R} {surf : (σ × List (Rgba K)) × List (Dab.Args K)} (hb : Sampling s u N surf0 b surf)
    {r : Bool × Brush K R × ((σ × List (Rgba K)) × List (Dab.Args K))}
    (h : moveTo (recordDabs (recordSamples e)) fuel b surf ev x y dt = .ok r) : Sampling s u N surf0 r.2.1 r.2.2 := by
  obtain ⟨t, b1, hl, hu, -, h2, h3⟩ := moveTo_eq h
  obtain ⟨h0, k1, k2⟩ := (dabLoop_induct
    (fun t : Loop K R ((σ × List (Rgba K)) × List (Dab.Args K)) => Sampling s u N surf0 t.b t.surf)
    (fun t t' _ hst hi => dabStep_looks hs hu1 hN hN0 hlim hi hst) _ _ _ hl
    (by simp only; rw [countDabs_st]; exact hb)).1
  have hb1 := update_eq hu
  rw [h3, h2, splitStroke_eq]
  refine ⟨?_, ?_, ?_⟩
  · show b1.settings = _
    rw [hb1]; exact h0
  · show b1.buckets.mem = _
    rw [hb1]; exact k1
  · show ∃ found dabs, _ ∧ _ ∧ _ ∧ Recent u N _ b1.st.smudge.recentness
    rw [hb1]; exact k2

theorem strokeEvent_looks {e : Env K R σ} {s : Load.Brush K} {u l : K} {N : Nat} (hs : Looks s u l) (hu1 : u < 1) (hN : FadesAfter e u l N)
    (hN0 : 0 < N) (hlim : 0 < fadeLimit e u l) {surf0 : (σ × List (Rgba K)) × List (Dab.Args K)} {fuel : Nat} {ev : Event K}
    {b : Brush K R} (hb : Undisturbed b) (h5 : ev.dtime ≤ 5) {surf : (σ × List (Rgba K)) × List (Dab.Args K)}
    (hS : Sampling s u N surf0 b surf) {r : Bool × Brush K R × ((σ × List (Rgba K)) × List (Dab.Args K))}
    (h : strokeEvent (recordDabs (recordSamples e)) fuel b surf ev = .ok r) : Sampling s u N surf0 r.2.1 r.2.2 := by
  have sk : skipStage (recordDabs (recordSamples e)) b ev.x ev.y ev.dtime = (b, ev.dtime, false) := steady_skip hb _ _ _
  have cu := cursor_tracks (e := recordDabs (recordSamples e)) (b := b) (T := (b.settings sSlowTracking).base) ⟨rfl, hb.noise, hb.skip⟩
    ev.x ev.y ev.dtime
  rcases strokeEvent_cases h with ⟨h1, -⟩ | ⟨-, h1, -⟩ | ⟨-, -, h⟩
  · rw [sk] at h1; cases h1
  · rw [sk, hb.reset] at h1
    rcases h1 with q | q
    · exact absurd q (not_lt.mpr h5)
    · cases q
  · simp only [sk, cu] at h
    exact moveTo_looks hs hu1 hN hN0 hlim hS h

theorem strokes_look {e : Env K R σ} {s : Load.Brush K} {u l : K} {N : Nat} (hs : Looks s u l) (hu1 : u < 1) (hN : FadesAfter e u l N)
    (hN0 : 0 < N) (hlim : 0 < fadeLimit e u l) {surf0 : (σ × List (Rgba K)) × List (Dab.Args K)} {fuel : Nat} (ms : List (Motion K)) :
    ∀ {b : Brush K R}, Midst s b → (∀ m ∈ ms, m.dtime ≤ 5) → ∀ {surf : (σ × List (Rgba K)) × List (Dab.Args K)}, Sampling s u N surf0 b surf →
    ∀ {r : Brush K R × ((σ × List (Rgba K)) × List (Dab.Args K))}, strokes (recordDabs (recordSamples e)) fuel b surf ms = .ok r →
    Sampling s u N surf0 r.1 r.2 := by
  induction ms with
  | nil =>
    intro b _ _ surf hS r h
    rw [← Except.ok.inj h]
    exact hS
  | cons m ms ih =>
    intro b hb hm surf hS r h
    unfold strokes at h
    obtain ⟨r1, h1, h⟩ := bind_ok h
    have k := strokeTo_placid hb.placid h1
    rw [hb.settings] at k
    have key : Sampling s u N surf0 r1.2.1 r1.2.2 := by
      have hmt := hm m (by simp)
      obtain ⟨ev, he, ⟨-, h2⟩ | ⟨-, inner, r2, hi, h2, h3⟩⟩ := strokeTo_cases h1
      · have h5 : ev.dtime ≤ 5 := by
          rw [sanitise_dtime he]
          split_ifs <;> linarith
        exact strokeEvent_looks hs hu1 hN hN0 hlim hb.still h5 hS h2
      · have h5 : inner.dtime ≤ 5 := by
          rw [sanitise_dtime hi]
          show (if ev.dtime - 1 / 10000 ≤ 0 then _ else ev.dtime - 1 / 10000) ≤ _
          rw [sanitise_dtime he]
          split_ifs <;> linarith
        have k2 := strokeEvent_placid hb.placid (sanitise_pressure hi).1 (sanitise_pressure hi).2.le h2
        have k3 := strokeEvent_looks hs hu1 hN hN0 hlim hb.still h5 hS h2
        exact strokeEvent_looks (b := r2.2.1) hs hu1 hN hN0 hlim k2.still
          (ev := { ev with dtime := 1 / 10000 }) (by show (1 / 10000 : K) ≤ 5; norm_num) k3 h3
    exact ih k (fun m' hm' => hm m' (by simp [hm'])) key h

/-- **One look at the canvas for `N` dabs**, with the first of them: `N` is the number of dabs after which what was found has faded below
the limit. -/
theorem looks_once_in_n {e : Env K R σ} {u l : K} {N : Nat} (hu1 : u < 1) (hN : FadesAfter e u l N)
    (hpow : ∀ a, 0 ≤ a → a ≤ 1 → 0 ≤ e.pow a l) {fuel : Nat} (ms : List (Motion K)) {b : Brush K R} (hb : Midst b.settings b)
    (hs : Looks b.settings u l) (hm : ∀ m ∈ ms, m.dtime ≤ 5) (hk : b.buckets.mem = []) (h0 : b.st.smudge.recentness = 0)
    {surf : (σ × List (Rgba K)) × List (Dab.Args K)} {r : Brush K R × ((σ × List (Rgba K)) × List (Dab.Args K))}
    (h : strokes (recordDabs (recordSamples e)) fuel b surf ms = .ok r) :
    ∃ found dabs, r.2.1.2 = surf.1.2 ++ found ∧ r.2.2 = surf.2 ++ dabs ∧ found.length = (dabs.length + N - 1) / N := by
  have hN0 : 0 < N := by
    rcases Nat.eq_zero_or_pos N with q | q
    · have h1 := hN.1
      rw [q, pow_zero] at h1
      exact absurd h1 (not_lt.mpr (min_le_left _ _))
    · exact q
  obtain ⟨-, -, found, dabs, k1, k2, k3, -⟩ := strokes_look hs hu1 hN hN0 (fadeLimit_pos hpow hu1) ms hb hm (surf0 := surf)
    ⟨rfl, hk, [], [], by simp, by simp, by
      simp only [List.length_nil, zero_add]
      exact (Nat.div_eq_of_lt (by omega)).symm, .inl ⟨rfl, h0⟩⟩ h
  exact ⟨found, dabs, k1, k2, k3⟩

/-! ### How many dabs that is -/

/-- There always is such a number. -/
theorem fades_some_time {e : Env K R σ} {u l : K} (hu1 : u < 1) (hpow : ∀ a, 0 ≤ a → a ≤ 1 → 0 ≤ e.pow a l) : ∃ N, FadesAfter e u l N := by
  have : Archimedean K := FloorRing.archimedean K
  have m0 : (0 : K) < max (1 / 100) u := lt_of_lt_of_le (by norm_num) (le_max_left _ _)
  have hex : ∃ N, max (1 / 100) u ^ N < fadeLimit e u l := exists_pow_lt_of_lt_one (fadeLimit_pos hpow hu1) (max_lt (by norm_num) hu1)
  classical
  exact ⟨Nat.find hex, Nat.find_spec hex, fun k hk => not_lt.mp (Nat.find_min hex hk)⟩

/-- Only one. -/
theorem FadesAfter.unique {e : Env K R σ} {u l : K} {N N' : Nat} (h : FadesAfter e u l N) (h' : FadesAfter e u l N') : N = N' := by
  rcases Nat.lt_trichotomy N N' with q | q | q
  · exact absurd h.1 (not_lt.mpr (h'.2 N q))
  · exact q
  · exact absurd h'.1 (not_lt.mpr (h.2 N' q))

end

section real
variable {R σ : Type} (next gauss : R → ℝ × R) (draw : σ → Dab.Args ℝ → Bool × σ) (getColor : σ → Int → Int → ℝ → ℝ → Color.Rgba ℝ × σ)

/-- **With a greater multiplier the canvas is looked at less often.** -/
theorem looks_less_often {u l l' : ℝ} (hu1 : u < 1) (hl : l ≤ l') {N N' : Nat} (h : FadesAfter (realEnv next gauss draw getColor) u l N)
    (h' : FadesAfter (realEnv next gauss draw getColor) u l' N') : N ≤ N' := by
  by_contra q
  have h1 := h.2 N' (not_le.mp q)
  have h2 := h'.1
  have m0 : (0 : ℝ) < max (1 / 100) u := lt_of_lt_of_le (by norm_num) (le_max_left _ _)
  have m1 : max (1 / 100) u < 1 := max_lt (by norm_num) hu1
  have : fadeLimit (realEnv next gauss draw getColor) u l' ≤ fadeLimit (realEnv next gauss draw getColor) u l := by
    refine min_le_min_left _ ?_
    have := Real.rpow_le_rpow_of_exponent_ge (x := 1 / 2 * max (1 / 100) u) (by linarith) (by linarith) hl
    show (1 / 2 * max (1 / 100) u) ^ l' + 1 / 10 ^ 16 ≤ (1 / 2 * max (1 / 100) u) ^ l + 1 / 10 ^ 16
    linarith
  exact absurd (lt_of_lt_of_le h2 this) (not_lt.mpr h1)

/-- Without a multiplier it is looked at for each dab. -/
theorem looks_at_each_dab {u : ℝ} (hu1 : u < 1) : FadesAfter (realEnv next gauss draw getColor) u 0 1 := by
  have h1 : fadeLimit (realEnv next gauss draw getColor) u 0 = 1 := by
    show min 1 ((1 / 2 * max (1 / 100) u) ^ (0 : ℝ) + 1 / 10 ^ 16) = 1
    rw [Real.rpow_zero]
    exact min_eq_left (by norm_num)
  refine ⟨?_, fun k hk => ?_⟩
  · rw [h1, pow_one]
    exact max_lt (by norm_num) hu1
  · rw [h1, Nat.lt_one_iff.mp hk, pow_zero]

/-- With a multiplier of 1 or more it is looked at no more than for every second dab. -/
theorem looks_at_second_dabs {u l : ℝ} (hu1 : u < 1) (hl : 1 ≤ l) {N : Nat} (h : FadesAfter (realEnv next gauss draw getColor) u l N) :
    2 ≤ N := by
  have m0 : (1 / 100 : ℝ) ≤ max (1 / 100) u := le_max_left _ _
  have m1 : max (1 / 100) u < 1 := max_lt (by norm_num) hu1
  have : fadeLimit (realEnv next gauss draw getColor) u l ≤ 1 / 2 * max (1 / 100) u + 1 / 10 ^ 16 := by
    refine (min_le_right _ _).trans ?_
    have := Real.rpow_le_rpow_of_exponent_ge (x := 1 / 2 * max (1 / 100) u) (by linarith) (by linarith) hl
    rw [Real.rpow_one] at this
    show (1 / 2 * max (1 / 100) u) ^ l + 1 / 10 ^ 16 ≤ _
    linarith
  by_contra q
  have h1 := h.1
  have hN : N = 0 ∨ N = 1 := by omega
  have e16 : (1 / 10 ^ 16 : ℝ) < 1 / 1000 := by norm_num
  rcases hN with q | q
  · rw [q, pow_zero] at h1
    linarith
  · rw [q, pow_one] at h1
    linarith

/-- With the smudge length 1/2 and the multiplier `l` it is looked at once for `2 l` dabs (beyond the range of the setting a margin in the
code makes it more often). -/
theorem looks_with_half_length {l : Nat} (h1 : 1 ≤ l) (hl : l ≤ 25) : FadesAfter (realEnv next gauss draw getColor) (1 / 2) l (2 * l) := by
  have hm : max (1 / 100 : ℝ) (1 / 2) = 1 / 2 := max_eq_right (by norm_num)
  have p0 : (0 : ℝ) < (1 / 4) ^ l := by positivity
  have p1 : (1 / 4 : ℝ) ^ l ≤ (1 / 4) ^ 1 := pow_le_pow_of_le_one (by norm_num) (by norm_num) h1
  have p2 : (1 / 4 : ℝ) ^ 25 ≤ (1 / 4) ^ l := pow_le_pow_of_le_one (by norm_num) (by norm_num) hl
  have p3 : (1 / 10 ^ 16 : ℝ) ≤ (1 / 4) ^ 25 := by norm_num
  have lim : fadeLimit (realEnv next gauss draw getColor) (1 / 2) l = (1 / 4) ^ l + 1 / 10 ^ 16 := by
    show min 1 ((1 / 2 * max (1 / 100 : ℝ) (1 / 2)) ^ (l : ℝ) + 1 / 10 ^ 16) = _
    rw [hm, show (1 / 2 * (1 / 2) : ℝ) = 1 / 4 by norm_num, Real.rpow_natCast]
    refine min_eq_right ?_
    have : (1 / 4 : ℝ) ^ 1 + 1 / 10 ^ 16 ≤ 1 := by norm_num
    linarith
  have sq : ((1 / 2 : ℝ)) ^ (2 * l) = (1 / 4) ^ l := by rw [pow_mul]; norm_num
  refine ⟨?_, fun k hk => ?_⟩
  · rw [lim, hm, sq]
    have : (0 : ℝ) < 1 / 10 ^ 16 := by norm_num
    linarith
  · rw [lim, hm]
    have : (1 / 2 : ℝ) ^ (2 * l - 1) ≤ (1 / 2) ^ k := pow_le_pow_of_le_one (by norm_num) (by norm_num) (by omega)
    have e1 : (1 / 2 : ℝ) ^ (2 * l) = (1 / 2) ^ (2 * l - 1) * (1 / 2) := by
      rw [← pow_succ]; congr 1; omega
    rw [sq] at e1
    linarith

end real

namespace Demo

/-- A smudging brush with a multiplier. With the functions of `env` it looks at every second dab. -/
def spareLooks : Brush ℚ Nat := set (smearer (1 / 2)) sSmudgeLengthLog 1

theorem spareLooks_looks : Midst spareLooks.settings spareLooks ∧ Looks spareLooks.settings (1 / 2) 1 ∧ FadesAfter env (1 / 2 : ℚ) 1 2 := by
  refine ⟨⟨⟨⟨le_refl (0 : ℚ), zero_lt_one⟩, rfl, ?_, le_refl (0 : ℚ)⟩, rfl, rfl⟩,
    ⟨fun _ => rfl, fun _ => rfl, fun _ => one_ne_zero, fun _ => rfl⟩, ?_, ?_⟩
  · show (0 : ℚ) ≤ _; norm_num
  · decide +kernel
  · decide +kernel

/-- Four dabs, two looks. -/
theorem two_looks : look (fun r => (r.2.1.2.length, r.2.2.length)) (strokes (recordDabs (recordSamples env)) 100 spareLooks (([], []), [])
    [motion 0 0 (1 / 2) (1 / 10), motion 6 0 (1 / 2) (3 / 40)]) = some (2, 4) := by decide +kernel

/-- The hypotheses hold for it. -/
example {fuel : Nat} {r : Brush ℚ Nat × ((List (Dab.Args ℚ) × List (Rgba ℚ)) × List (Dab.Args ℚ))}
    (h : strokes (recordDabs (recordSamples env)) fuel spareLooks (([], []), [])
      [motion 0 0 (1 / 2) (1 / 10), motion 6 0 (1 / 2) (3 / 40)] = .ok r) : r.2.1.2.length = (r.2.2.length + 1) / 2 := by
  obtain ⟨h1, h2, h3⟩ := spareLooks_looks
  obtain ⟨found, dabs, k1, k2, k3⟩ := looks_once_in_n (by norm_num) h3 (fun a h _ => h) _ h1 h2
    (by intro m hm; simp only [List.mem_cons, List.not_mem_nil, or_false] at hm
        rcases hm with rfl | rfl <;> (simp only [motion]; norm_num)) rfl rfl h
  rw [k1, k2]
  exact k3

end Demo
end Verif.Engine
