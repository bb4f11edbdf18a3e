import Verif.Model.Rng
import Mathlib.Data.List.Forall2
import Mathlib.Data.List.Basic
import Mathlib.Tactic.Linarith
import Mathlib.Algebra.Order.Field.Basic
import Mathlib.Algebra.Order.Ring.Int

/-! Helper lemmas for the random generator: the array code treats the numbers uniformly, so that runs on
related numbers stay related. -/

namespace Verif.Rng

section rel
variable {V W : Type}

/-- Both runs end alike, with related results. -/
def ORel {A B : Type} (R : A → B → Prop) : Except Fault A → Except Fault B → Prop
  | .ok a, .ok b => R a b
  | .error e, .error e' => e = e'
  | _, _ => False

theorem ORel.ok_right {A B : Type} {R : A → B → Prop} {x : Except Fault A} {b : B} (h : ORel R x (.ok b)) :
    ∃ a, x = .ok a ∧ R a b := by
  cases x with
  | ok a => exact ⟨a, rfl, h⟩
  | error e => exact absurd h (by simp [ORel])

theorem ORel.bind {A B C D : Type} {R : A → B → Prop} {Q : C → D → Prop} {x : Except Fault A} {y : Except Fault B}
    {f : A → Except Fault C} {g : B → Except Fault D} (h : ORel R x y) (hf : ∀ a b, R a b → ORel Q (f a) (g b)) :
    ORel Q (x >>= f) (y >>= g) := by
  cases x <;> cases y <;> simp only [ORel] at h
  · subst h; exact (rfl : _ = _)
  · exact hf _ _ h

theorem rd_rel {R : V → W → Prop} {l : List V} {m : List W} (h : List.Forall₂ R l m) (i : Int) :
    ORel R (rd l i) (rd m i) := by
  unfold rd
  split_ifs
  · exact (rfl : _ = _)
  · generalize i.toNat = n
    induction h generalizing n with
    | nil => exact (rfl : _ = _)
    | cons hr _ ih =>
      cases n with
      | zero => exact hr
      | succ n => simpa using ih n

theorem wr_rel {R : V → W → Prop} {l : List V} {m : List W} (h : List.Forall₂ R l m) (i : Int) {v : V} {w : W}
    (hv : R v w) : ORel (List.Forall₂ R) (wr l i v) (wr m i w) := by
  unfold wr
  rw [h.length_eq]
  split_ifs
  · exact (rfl : _ = _)
  · show List.Forall₂ R (l.set i.toNat v) (m.set i.toNat w)
    rename_i h1 h2
    clear h1 h2
    generalize i.toNat = n
    induction h generalizing n with
    | nil => exact .nil
    | cons hr h ih =>
      cases n with
      | zero => exact .cons hv h
      | succ n => exact .cons hr (ih n)
  · exact (rfl : _ = _)

theorem foldlM_rel {A B C : Type} {R : A → B → Prop} (l : List C) {f : A → C → Except Fault A}
    {g : B → C → Except Fault B} (h : ∀ a b j, R a b → ORel R (f a j) (g b j)) {a : A} {b : B} (hab : R a b) :
    ORel R (l.foldlM f a) (l.foldlM g b) := by
  induction l generalizing a b with
  | nil => exact hab
  | cons j l ih =>
    rw [List.foldlM_cons, List.foldlM_cons]
    exact (h a b j hab).bind fun a b hab => ih hab

variable {R : V → W → Prop} {add : V → V → V} {add' : W → W → W}

theorem square_rel (hadd : ∀ a b c d, R a b → R c d → R (add a c) (add' b d)) {z : V} {z' : W} (hz : R z z')
    {u : List V} {u' : List W} (h : List.Forall₂ R u u') :
    ORel (List.Forall₂ R) (square add z u) (square add' z' u') := by
  unfold square
  refine ORel.bind (R := List.Forall₂ R) (foldlM_rel _ ?_ h) ?_
  · intro a b j hab
    refine ORel.bind (rd_rel hab j) fun v w hv => ?_
    refine ORel.bind (wr_rel hab _ hv) fun a b hab => ?_
    exact wr_rel hab _ hz
  · intro a b hab
    refine foldlM_rel _ ?_ hab
    intro a b j hab
    refine ORel.bind (rd_rel hab _) fun v w hv => ?_
    refine ORel.bind (rd_rel hab _) fun v' w' hv' => ?_
    refine ORel.bind (wr_rel hab _ (hadd _ _ _ _ hv hv')) fun a b hab => ?_
    refine ORel.bind (rd_rel hab _) fun v w hv => ?_
    refine ORel.bind (rd_rel hab _) fun v' w' hv' => ?_
    exact wr_rel hab _ (hadd _ _ _ _ hv hv')

theorem timesZ_rel (hadd : ∀ a b c d, R a b → R c d → R (add a c) (add' b d))
    {u : List V} {u' : List W} (h : List.Forall₂ R u u') :
    ORel (List.Forall₂ R) (timesZ add u) (timesZ add' u') := by
  unfold timesZ
  refine ORel.bind (R := List.Forall₂ R) (foldlM_rel _ ?_ h) ?_
  · intro a b j hab
    exact ORel.bind (rd_rel hab _) fun v w hv => wr_rel hab _ hv
  · intro a b hab
    refine ORel.bind (rd_rel hab _) fun v w hv => ?_
    refine ORel.bind (wr_rel hab _ hv) fun a b hab => ?_
    refine ORel.bind (rd_rel hab _) fun v w hv => ?_
    refine ORel.bind (rd_rel hab _) fun v' w' hv' => ?_
    exact wr_rel hab _ (hadd _ _ _ _ hv hv')

theorem seedLoop_rel (hadd : ∀ a b c d, R a b → R c d → R (add a c) (add' b d)) {z : V} {z' : W} (hz : R z z') :
    ∀ (fuel s t : Nat) {u : List V} {u' : List W}, List.Forall₂ R u u' →
    ORel (List.Forall₂ R) (seedLoop add z fuel s t u) (seedLoop add' z' fuel s t u') := by
  intro fuel
  induction fuel with
  | zero =>
    intro s t u u' h
    cases t with
    | zero => exact h
    | succ t => exact (rfl : _ = _)
  | succ fuel ih =>
    intro s t u u' h
    cases t with
    | zero => exact h
    | succ t =>
      unfold seedLoop
      refine ORel.bind (square_rel hadd hz h) fun u u' h => ?_
      have tail : ∀ (u : List V) (u' : List W), List.Forall₂ R u u' → ORel (List.Forall₂ R)
          (if s = 0 then seedLoop add z fuel s t u else seedLoop add z fuel (s / 2) (t + 1) u)
          (if s = 0 then seedLoop add' z' fuel s t u' else seedLoop add' z' fuel (s / 2) (t + 1) u') := by
        intro u u' h
        split_ifs
        · exact ih _ _ h
        · exact ih _ _ h
      dsimp only
      split_ifs
      all_goals first
        | exact ORel.bind (timesZ_rel hadd h) fun u u' h => by first | exact ih _ _ h | exact tail u u' h
        | exact ORel.bind (R := List.Forall₂ R) h fun u u' h => by first | exact ih _ _ h | exact tail u u' h

theorem install_rel {u : List V} {u' : List W} (h : List.Forall₂ R u u') {r : List V} {r' : List W}
    (hr : List.Forall₂ R r r') : ORel (List.Forall₂ R) (install u r) (install u' r') := by
  unfold install
  refine ORel.bind (R := List.Forall₂ R) (foldlM_rel _ ?_ hr) fun a b hab => foldlM_rel _ ?_ hab
  · intro a b j hab
    exact ORel.bind (rd_rel h _) fun v w hv => wr_rel hab _ hv
  · intro a b j hab
    exact ORel.bind (rd_rel h _) fun v w hv => wr_rel hab _ hv

end rel

/-! ### The array and the stream -/

section stream
variable {V : Type}

theorem foldlM_range {A : Type} (I : Int → A → Prop) {f : A → Int → Except Fault A} {lo hi : Int} (hle : lo ≤ hi)
    (h : ∀ j a, lo ≤ j → j < hi → I j a → ∃ a', f a j = .ok a' ∧ I (j + 1) a') {a : A} (ha : I lo a) :
    ∃ a', (cRange lo hi).foldlM f a = .ok a' ∧ I hi a' := by
  have key : ∀ (n : Nat) (lo : Int) (a : A), (∀ j a, lo ≤ j → j < lo + n → I j a → ∃ a', f a j = .ok a' ∧ I (j + 1) a') →
      I lo a → ∃ a', ((List.range n).map fun (k : Nat) => lo + (k : Int)).foldlM f a = .ok a' ∧ I (lo + n) a' := by
    intro n
    induction n with
    | zero => intro lo a _ ha; exact ⟨a, rfl, by simpa using ha⟩
    | succ n ih =>
      intro lo a h ha
      obtain ⟨a1, e1, h1⟩ := h lo a (le_refl _) (by push_cast; omega) ha
      obtain ⟨a2, e2, h2⟩ := ih (lo + 1) a1 (fun j a h1 h2 => h j a (by omega) (by push_cast; omega)) h1
      refine ⟨a2, ?_, by push_cast; rw [add_comm (n : Int) 1, ← add_assoc]; exact h2⟩
      rw [List.range_succ_eq_map, List.map_cons, List.foldlM_cons]
      simp only [Nat.cast_zero, add_zero, e1, bind, Except.bind, List.map_map]
      rw [← e2]
      congr 1
      apply List.map_congr_left
      intro k _
      simp only [Function.comp, Nat.cast_succ]
      omega
  have := key (hi - lo).toNat lo a (fun j a h1 h2 => h j a h1 (by omega)) ha
  obtain ⟨a', e, h'⟩ := this
  exact ⟨a', e, by rwa [show lo + ((hi - lo).toNat : Int) = hi by omega] at h'⟩

theorem rd_ok {l : List V} {i : Nat} {v : V} (h : l[i]? = some v) : rd l (i : Int) = .ok v := by
  unfold rd
  rw [if_neg (by omega), Int.toNat_natCast, h]

theorem wr_ok {l : List V} {i : Nat} (v : V) (h : i < l.length) : wr l (i : Int) v = .ok (l.set i v) := by
  unfold wr
  rw [if_neg (by omega), Int.toNat_natCast, if_pos h]

/-- `l` holds `x m, x (m+1), …` at its first `j` places. -/
def Holds (x : Nat → V) (m : Nat) (l : List V) (j : Nat) : Prop := ∀ i < j, l[i]? = some (x (m + i))

theorem Holds.set {x : Nat → V} {m : Nat} {l : List V} {j : Nat} (h : Holds x m l j) (hj : j < l.length) :
    Holds x m (l.set j (x (m + j))) (j + 1) := by
  intro i hi
  rw [List.getElem?_set]
  split_ifs with e
  · subst e; rfl
  · exact h i (by omega)

theorem Holds.eq_map {x : Nat → V} {m : Nat} {l : List V} (h : Holds x m l l.length) :
    l = (List.range l.length).map fun i => x (m + i) := by
  apply List.ext_getElem?
  intro i
  by_cases hi : i < l.length
  · rw [h i hi, List.getElem?_map, List.getElem?_range hi]; rfl
  · rw [List.getElem?_eq_none (by omega), List.getElem?_eq_none (by simp; omega)]

/-- `rng_double_get_array` continues the stream. -/
theorem getArray_spec {add : V → V → V} {x : Nat → V} (hx : ∀ n, x (n + 10) = add (x n) (x (n + 3)))
    {u aa : List V} {m n : Nat} (hn : 10 ≤ n) (hul : u.length = 10) (hu : Holds x m u 10) (hal : aa.length = n) :
    ∃ aa' u', getArray add u aa n = .ok (aa', u') ∧ aa'.length = n ∧ Holds x m aa' n ∧
      u'.length = 10 ∧ Holds x (m + n) u' 10 := by
  have hx' : ∀ j : Nat, 10 ≤ j → ∀ i : Nat, i = j → add (x (m + (j - 10))) (x (m + (j - 7))) = x (m + i) := by
    rintro j hj i rfl
    have := hx (m + (i - 10))
    rw [show m + (i - 10) + 10 = m + i by omega, show m + (i - 10) + 3 = m + (i - 7) by omega] at this
    exact this.symm
  obtain ⟨a1, e1, l1, h1⟩ := foldlM_range (lo := 0) (hi := 10) (fun j a => a.length = n ∧ Holds x m a j.toNat)
    (f := fun aa j => do wr aa j (← rd u j)) (by omega) (by
      rintro j a h0 h10 ⟨hl, hh⟩
      obtain ⟨k, rfl⟩ := Int.eq_ofNat_of_zero_le h0
      refine ⟨a.set k (x (m + k)), ?_, by simpa using hl, ?_⟩
      · simp only [rd_ok (hu k (by omega)), bind, Except.bind]
        exact wr_ok _ (by omega)
      · have := Holds.set (x := x) (m := m) (l := a) (j := k) hh (by omega)
        exact this) (a := aa) ⟨hal, fun i hi => absurd hi (by simp)⟩
  obtain ⟨a2, e2, l2, h2⟩ := foldlM_range (lo := 10) (hi := n) (fun j a => a.length = n ∧ Holds x m a j.toNat)
    (f := fun aa j => do wr aa j (add (← rd aa (j - 10)) (← rd aa (j - 7)))) (by omega) (by
      rintro j a h0 h10 ⟨hl, hh⟩
      obtain ⟨k, rfl⟩ := Int.eq_ofNat_of_zero_le (show 0 ≤ j by omega)
      have hh' : Holds x m a k := hh
      refine ⟨a.set k (x (m + k)), ?_, by simpa using hl, ?_⟩
      · have r1 : rd a ((k : Int) - 10) = .ok (x (m + (k - 10))) := by
          rw [show (k : Int) - 10 = ((k - 10 : Nat) : Int) by omega]
          exact rd_ok (hh' _ (by omega))
        have r2 : rd a ((k : Int) - 7) = .ok (x (m + (k - 7))) := by
          rw [show (k : Int) - 7 = ((k - 7 : Nat) : Int) by omega]
          exact rd_ok (hh' _ (by omega))
        simp only [r1, r2, bind, Except.bind, hx' k (by omega) k rfl]
        exact wr_ok _ (by omega)
      · have := Holds.set (x := x) (m := m) (l := a) (j := k) hh (by omega)
        exact this) (a := a1) ⟨l1, h1⟩
  have h2' : Holds x m a2 n := h2
  have rdA : ∀ j : Nat, j < n → rd a2 (j : Int) = .ok (x (m + j)) := fun j hj => rd_ok (h2' j hj)
  obtain ⟨u1, e3, l3, h3⟩ := foldlM_range (lo := 0) (hi := 7) (fun j a => a.length = 10 ∧ Holds x (m + n) a j.toNat)
    (f := fun u i => do wr u i (add (← rd a2 (max 10 (n : Int) + i - 10)) (← rd a2 (max 10 (n : Int) + i - 7)))) (by omega) (by
      rintro j a h0 h10 ⟨hl, hh⟩
      obtain ⟨k, rfl⟩ := Int.eq_ofNat_of_zero_le h0
      refine ⟨a.set k (x (m + n + k)), ?_, by simpa using hl, ?_⟩
      · have r1 : rd a2 (max 10 (n : Int) + k - 10) = .ok (x (m + (n + k - 10))) := by
          rw [show max 10 (n : Int) + k - 10 = ((n + k - 10 : Nat) : Int) by omega]
          exact rdA _ (by omega)
        have r2 : rd a2 (max 10 (n : Int) + k - 7) = .ok (x (m + (n + k - 7))) := by
          rw [show max 10 (n : Int) + k - 7 = ((n + k - 7 : Nat) : Int) by omega]
          exact rdA _ (by omega)
        simp only [r1, r2, bind, Except.bind, hx' (n + k) (by omega) (n + k) rfl, ← add_assoc]
        exact wr_ok _ (by omega)
      · have := Holds.set (x := x) (m := m + n) (l := a) (j := k) hh (by omega)
        exact this) (a := u) ⟨hul, fun i hi => absurd hi (by simp)⟩
  obtain ⟨u2, e4, l4, h4⟩ := foldlM_range (lo := 7) (hi := 10) (fun j a => a.length = 10 ∧ Holds x (m + n) a j.toNat)
    (f := fun u i => do wr u i (add (← rd a2 (max 10 (n : Int) + i - 10)) (← rd u (i - 7)))) (by omega) (by
      rintro j a h0 h10 ⟨hl, hh⟩
      obtain ⟨k, rfl⟩ := Int.eq_ofNat_of_zero_le (show 0 ≤ j by omega)
      have hh' : Holds x (m + n) a k := hh
      refine ⟨a.set k (x (m + n + k)), ?_, by simpa using hl, ?_⟩
      · have r1 : rd a2 (max 10 (n : Int) + k - 10) = .ok (x (m + (n + k - 10))) := by
          rw [show max 10 (n : Int) + k - 10 = ((n + k - 10 : Nat) : Int) by omega]
          exact rdA _ (by omega)
        have r2 : rd a ((k : Int) - 7) = .ok (x (m + (n + k - 7))) := by
          rw [show (k : Int) - 7 = ((k - 7 : Nat) : Int) by omega]
          have := rd_ok (hh' (k - 7) (by omega))
          rw [show m + n + (k - 7) = m + (n + k - 7) by omega] at this
          exact this
        simp only [r1, r2, bind, Except.bind, hx' (n + k) (by omega) (n + k) rfl, ← add_assoc]
        exact wr_ok _ (by omega)
      · have := Holds.set (x := x) (m := m + n) (l := a) (j := k) hh (by omega)
        exact this) (a := u1) ⟨l3, h3⟩
  refine ⟨a2, u2, ?_, l2, h2', l4, h4⟩
  unfold getArray
  simp only [bind, Except.bind] at e1 e2 e3 e4 ⊢
  rw [e1]
  dsimp only
  rw [e2]
  dsimp only
  rw [e3]
  dsimp only
  rw [e4]
  rfl

end stream

/-! ### Seeding -/

section seeding
variable {V : Type}

/-- Which elements of the buffer are initialised: the first ten. -/
def fresh : List Bool := [true, true, true, true, true, true, true, true, true, true,
  false, false, false, false, false, false, false, false, false]

def allSet : List Bool := List.replicate 19 true

theorem square_fresh : square and true fresh = .ok allSet := by decide +kernel
theorem square_allSet : square and true allSet = .ok allSet := by decide +kernel
theorem timesZ_allSet : timesZ and allSet = .ok allSet := by decide +kernel

theorem seedLoop_bound (fuel : Nat) : ∀ (s t k : Nat) (u : List Bool), s < 2 ^ k → k + t ≤ fuel →
    (u = allSet ∨ (u = fresh ∧ 0 < t)) → seedLoop and true fuel s t u = .ok allSet := by
  induction fuel with
  | zero =>
    intro s t k u hs hk hu
    have : t = 0 := by omega
    subst this
    rcases hu with rfl | ⟨_, h⟩
    · rfl
    · exact absurd h (by omega)
  | succ fuel ih =>
    intro s t k u hs hk hu
    cases t with
    | zero =>
      rcases hu with rfl | ⟨_, h⟩
      · rfl
      · exact absurd h (by omega)
    | succ t =>
      have hsq : square and true u = .ok allSet := by
        rcases hu with rfl | ⟨rfl, _⟩
        · exact square_allSet
        · exact square_fresh
      have hrest : (if s = 0 then seedLoop and true fuel s t allSet
          else seedLoop and true fuel (s / 2) (t + 1) allSet) = .ok allSet := by
        split_ifs with h0
        · exact ih s t 0 _ (by omega) (by omega) (Or.inl rfl)
        · cases k with
          | zero => exact absurd hs (by omega)
          | succ k => exact ih (s / 2) (t + 1) k _ (by rw [Nat.pow_succ] at hs; omega) (by omega) (Or.inl rfl)
      unfold seedLoop
      simp only [hsq, bind, Except.bind, timesZ_allSet, hrest, ite_self]

/-- A number, if it is known to be initialised. -/
def Known (v : V) (o : Option V) : Prop := ∀ w, o = some w → w = v

def oadd (add : V → V → V) : Option V → Option V → Option V
  | some a, some b => some (add a b)
  | _, _ => none

theorem oadd_known {add : V → V → V} (a : V) (b : Option V) (c : V) (d : Option V) (h1 : Known a b) (h2 : Known c d) :
    Known (add a c) (oadd add b d) := by
  intro w hw
  cases b <;> cases d <;> simp only [oadd, Option.some.injEq, reduceCtorEq] at hw
  rw [← hw, h1 _ rfl, h2 _ rfl]

/-- Initialised as claimed. -/
def IsSet (o : Option V) (b : Bool) : Prop := b = true → o.isSome = true

theorem oadd_isSet {add : V → V → V} (a : Option V) (b : Bool) (c : Option V) (d : Bool) (h1 : IsSet a b)
    (h2 : IsSet c d) : IsSet (oadd add a c) (and b d) := by
  intro h
  obtain ⟨hb, hd⟩ := (Bool.and_eq_true _ _).mp h
  have := h1 hb
  have := h2 hd
  cases a <;> cases c <;> simp_all [oadd]

theorem forall₂_append {A B : Type} {R : A → B → Prop} {l l' : List A} {m m' : List B} (h : List.Forall₂ R l m)
    (h' : List.Forall₂ R l' m') : List.Forall₂ R (l ++ l') (m ++ m') := by
  induction h with
  | nil => exact h'
  | cons h _ ih => exact .cons h ih

theorem forall₂_map {A B C : Type} {R : A → B → Prop} (f : C → A) (g : C → B) (l : List C) (h : ∀ c, R (f c) (g c)) :
    List.Forall₂ R (l.map f) (l.map g) := by
  induction l with
  | nil => exact .nil
  | cons c l ih => exact .cons (h c) ih

theorem forall₂_junk {A B : Type} {R : A → B → Prop} (l : List A) (n : Nat) (hn : l.length = n) (b : B) (h : ∀ a ∈ l, R a b) :
    List.Forall₂ R l (List.replicate n b) := by
  subst hn
  induction l with
  | nil => exact .nil
  | cons a l ih => exact .cons (h a (by simp)) (ih fun a ha => h a (by simp [ha]))

theorem known_init (a j : List V) (ha : a.length = 10) (hj : j.length = 9) :
    List.Forall₂ Known (a ++ j) (a.map some ++ List.replicate 9 none) ∧
    List.Forall₂ IsSet (a.map some ++ List.replicate 9 (none : Option V)) fresh := by
  constructor
  · apply forall₂_append
    · have := forall₂_map (R := Known) (fun v : V => v) some a (fun v w hw => (Option.some.inj hw).symm)
      simpa using this
    · exact forall₂_junk j 9 hj none fun a _ w hw => by cases hw
  · have e : fresh = List.replicate 10 true ++ List.replicate 9 false := rfl
    rw [e]
    apply forall₂_append
    · refine forall₂_junk _ 10 (by simpa using ha) true fun o ho _ => ?_
      obtain ⟨v, _, rfl⟩ := List.mem_map.mp ho
      rfl
    · exact forall₂_junk _ 9 (by simp) false fun a _ h => by cases h

/-- Once initialised everywhere, the numbers are determined. -/
theorem known_all {L : List (Option V)} {n : Nat} (h : List.Forall₂ IsSet L (List.replicate n true)) :
    ∃ M : List V, M.length = n ∧ ∀ u : List V, List.Forall₂ Known u L → u = M := by
  induction L generalizing n with
  | nil =>
    cases n with
    | zero => exact ⟨[], rfl, fun u hu => by cases hu; rfl⟩
    | succ n => cases h
  | cons o L ih =>
    cases n with
    | zero => cases h
    | succ n =>
      rw [List.replicate_succ] at h
      cases h with
      | cons h1 h2 =>
        obtain ⟨M, hl, hM⟩ := ih h2
        obtain ⟨v, hv⟩ := Option.isSome_iff_exists.mp (h1 rfl)
        refine ⟨v :: M, by simp [hl], ?_⟩
        intro u hu
        cases hu with
        | cons k1 k2 => rw [hM _ k2, k1 v hv]

/-- Squaring does not depend on the uninitialised elements. -/
theorem square_junk (add : V → V → V) (z : V) (a : List V) (ha : a.length = 10) :
    ∃ M : List V, M.length = 19 ∧ ∀ j : List V, j.length = 9 → square add z (a ++ j) = .ok M := by
  have h0 := (known_init a (a.take 9) ha (by simp [ha])).2
  have h1 := square_rel (R := IsSet) (add := oadd add) (add' := and) oadd_isSet (z := some z) (z' := true)
    (fun _ => rfl) h0
  rw [square_fresh] at h1
  obtain ⟨L, hL, hset⟩ := h1.ok_right
  obtain ⟨M, hM, huniq⟩ := known_all (n := 19) hset
  refine ⟨M, hM, fun j hj => ?_⟩
  have h2 := square_rel (R := Known) (add := add) (add' := oadd add) oadd_known (z := z) (z' := some z)
    (fun w hw => (Option.some.inj hw).symm) (known_init a j ha hj).1
  rw [hL] at h2
  obtain ⟨u, hu, hk⟩ := h2.ok_right
  rw [hu, huniq u hk]

/-- Neither does the whole loop. -/
theorem seedLoop_junk (add : V → V → V) (z : V) (a : List V) (ha : a.length = 10) (s : Nat) (hs : s < 2 ^ 30) :
    ∃ M : List V, M.length = 19 ∧ ∀ j : List V, j.length = 9 → seedLoop add z 64 s 6 (a ++ j) = .ok M := by
  have h0 := (known_init a (a.take 9) ha (by simp [ha])).2
  have h1 := seedLoop_rel (R := IsSet) (add := oadd add) (add' := and) oadd_isSet (z := some z) (z' := true)
    (fun _ => rfl) 64 s 6 h0
  rw [seedLoop_bound 64 s 6 30 fresh hs (by omega) (Or.inr ⟨rfl, by omega⟩)] at h1
  obtain ⟨L, hL, hset⟩ := h1.ok_right
  obtain ⟨M, hM, huniq⟩ := known_all (n := 19) hset
  refine ⟨M, hM, fun j hj => ?_⟩
  have h2 := seedLoop_rel (R := Known) (add := add) (add' := oadd add) oadd_known (z := z) (z' := some z)
    (fun w hw => (Option.some.inj hw).symm) 64 s 6 (known_init a j ha hj).1
  rw [hL] at h2
  obtain ⟨u, hu, hk⟩ := h2.ok_right
  rw [hu, huniq u hk]

/-- In range, if initialised. -/
def InUnit (v : Int) (b : Bool) : Prop := b = true → 0 ≤ v ∧ v < unit

theorem unit_pos : 0 < unit := by decide

theorem modSum_eq {x y : Int} (hx : 0 ≤ x) (hy : 0 ≤ y) : modSum x y = (x + y) % unit := by
  unfold modSum
  rw [Int.tdiv_eq_ediv_of_nonneg (by omega), Int.emod_def]

theorem modSum_inUnit (a : Int) (b : Bool) (c : Int) (d : Bool) (h1 : InUnit a b) (h2 : InUnit c d) :
    InUnit (modSum a c) (and b d) := by
  intro h
  obtain ⟨hb, hd⟩ := (Bool.and_eq_true _ _).mp h
  obtain ⟨h1, _⟩ := h1 hb
  obtain ⟨h2, _⟩ := h2 hd
  rw [modSum_eq h1 h2]
  exact ⟨Int.emod_nonneg _ unit_pos.ne', Int.emod_lt_of_pos _ unit_pos⟩

theorem seedLoop_inUnit (a j : List Int) (ha : a.length = 10) (hj : j.length = 9)
    (hr : ∀ v ∈ a, 0 ≤ v ∧ v < unit) (s : Nat) (hs : s < 2 ^ 30) {M : List Int}
    (h : seedLoop modSum 0 64 s 6 (a ++ j) = .ok M) : ∀ v ∈ M, 0 ≤ v ∧ v < unit := by
  have h0 : List.Forall₂ InUnit (a ++ j) fresh := by
    have e : fresh = List.replicate 10 true ++ List.replicate 9 false := rfl
    rw [e]
    apply forall₂_append
    · exact forall₂_junk _ 10 ha true fun v hv _ => hr v hv
    · exact forall₂_junk _ 9 hj false fun v _ h => by cases h
  have h1 := seedLoop_rel (R := InUnit) (add := modSum) (add' := and) modSum_inUnit (z := 0) (z' := true)
    (fun _ => ⟨le_refl _, unit_pos⟩) 64 s 6 h0
  rw [seedLoop_bound 64 s 6 30 fresh hs (by omega) (Or.inr ⟨rfl, by omega⟩), h] at h1
  have h2 : List.Forall₂ InUnit M (List.replicate 19 true) := h1
  generalize 19 = n at h2
  clear h h1
  induction M generalizing n with
  | nil => intro v hv; simp at hv
  | cons w M ih =>
    cases n with
    | zero => cases h2
    | succ n =>
      rw [List.replicate_succ] at h2
      cases h2 with
      | cons k1 k2 =>
        intro v hv
        rcases List.mem_cons.mp hv with rfl | hv
        · exact k1 rfl
        · exact ih n k2 v hv

/-! ### Parity -/

/-- All lists of `n` bits. -/
def allBits : Nat → List (List Bool)
  | 0 => [[]]
  | n + 1 => (allBits n).flatMap fun l => [false :: l, true :: l]

theorem mem_allBits (l : List Bool) : l ∈ allBits l.length := by
  induction l with
  | nil => simp [allBits]
  | cons b l ih =>
    rw [List.length_cons]
    unfold allBits
    rw [List.mem_flatMap]
    exact ⟨l, ih, by cases b <;> simp⟩

/-- One of the first ten bits is set, out of 19. -/
def Odd10 (w : List Bool) : Bool := w.length == 19 && (w.take 10).any id

/-- "Squaring", and "multiplying by z" after it, keep one of the ten bits set: for every combination of
bits. -/
def keepsOdd (p : List Bool) : Bool :=
  !p.any id || (match square xor false (p ++ List.replicate 9 false) with
    | .ok w => Odd10 w && (match timesZ xor w with
      | .ok w' => Odd10 w'
      | .error _ => false)
    | .error _ => false)

theorem keepsOdd_all : (allBits 10).all keepsOdd = true := by decide +kernel

theorem seedLoop_odd (fuel : Nat) : ∀ (s t : Nat) (w r : List Bool), Odd10 w = true →
    seedLoop xor false fuel s t w = .ok r → Odd10 r = true := by
  induction fuel with
  | zero =>
    intro s t w r hw h
    cases t with
    | zero => cases h; exact hw
    | succ t => cases h
  | succ fuel ih =>
    intro s t w r hw h
    cases t with
    | zero => cases h; exact hw
    | succ t =>
      have hlen : w.length = 19 := by
        simp only [Odd10, Bool.and_eq_true, beq_iff_eq] at hw; exact hw.1
      have hany : (w.take 10).any id = true := by
        simp only [Odd10, Bool.and_eq_true] at hw; exact hw.2
      have hl10 : (w.take 10).length = 10 := by rw [List.length_take]; omega
      have hk := List.all_eq_true.mp keepsOdd_all (w.take 10) (by
        have := mem_allBits (w.take 10)
        rwa [hl10] at this)
      unfold keepsOdd at hk
      rw [hany] at hk
      obtain ⟨M, _, hM⟩ := square_junk xor false (w.take 10) hl10
      rw [hM _ (by simp)] at hk
      have hsq : square xor false w = .ok M := by
        have := hM (w.drop 10) (by rw [List.length_drop]; omega)
        rwa [List.take_append_drop] at this
      simp only [Bool.not_true, Bool.false_or, Bool.and_eq_true] at hk
      obtain ⟨hk1, hk2⟩ := hk
      have rest : ∀ w', Odd10 w' = true → (if s = 0 then seedLoop xor false fuel s t w'
          else seedLoop xor false fuel (s / 2) (t + 1) w') = .ok r → Odd10 r = true := by
        intro w' hw' h
        split_ifs at h
        · exact ih _ _ _ _ hw' h
        · exact ih _ _ _ _ hw' h
      unfold seedLoop at h
      simp only [hsq, bind, Except.bind] at h
      by_cases ho : s % 2 = 1
      · rw [if_pos ho] at h
        cases hz : timesZ xor M with
        | error e => rw [hz] at hk2; cases hk2
        | ok w' =>
          rw [hz] at h hk2
          exact rest w' hk2 h
      · rw [if_neg ho] at h
        exact rest M hk1 h

/-- The bit is the parity of the number. -/
def Parity (v : Int) (b : Bool) : Prop := b = decide (v % 2 = 1)

theorem modSum_parity (a : Int) (b : Bool) (c : Int) (d : Bool) (h1 : Parity a b) (h2 : Parity c d) :
    Parity (modSum a c) (xor b d) := by
  unfold Parity at *
  subst h1 h2
  have : modSum a c % 2 = (a + c) % 2 := by
    unfold modSum unit
    omega
  rw [this]
  rcases Int.emod_two_eq_zero_or_one a with ha | ha <;> rcases Int.emod_two_eq_zero_or_one c with hc | hc <;>
    simp [Int.add_emod, ha, hc]

theorem forall₂_parity (u : List Int) : List.Forall₂ Parity u (u.map fun v => decide (v % 2 = 1)) := by
  induction u with
  | nil => exact .nil
  | cons v u ih => exact .cons rfl ih

theorem parity_eq {u : List Int} {w : List Bool} (h : List.Forall₂ Parity u w) :
    w = u.map fun v => decide (v % 2 = 1) := by
  induction h with
  | nil => rfl
  | cons h _ ih => rw [List.map_cons, ← ih, h]

theorem seedLoop_parity {u M : List Int} (hl : u.length = 19) (ho : ∃ v ∈ u.take 10, v % 2 = 1) {fuel s t : Nat}
    (h : seedLoop modSum 0 fuel s t u = .ok M) : ∃ v ∈ M.take 10, v % 2 = 1 := by
  have hr := seedLoop_rel (R := Parity) (add := modSum) (add' := xor) modSum_parity (z := 0) (z' := false)
    (by unfold Parity; decide) fuel s t (forall₂_parity u)
  rw [h] at hr
  cases hx : seedLoop xor false fuel s t (u.map fun v => decide (v % 2 = 1)) with
  | error e => rw [hx] at hr; exact absurd hr (by simp [ORel])
  | ok r =>
    rw [hx] at hr
    have hodd := seedLoop_odd fuel s t _ r (by
      obtain ⟨v, hv, hv1⟩ := ho
      simp only [Odd10, List.length_map, hl, beq_self_eq_true, Bool.true_and, List.any_eq_true, id]
      refine ⟨true, ?_, rfl⟩
      rw [← List.map_take, List.mem_map]
      exact ⟨v, hv, by simp [hv1]⟩) hx
    have he := parity_eq hr
    rw [he] at hodd
    simp only [Odd10, Bool.and_eq_true, List.any_eq_true, id] at hodd
    obtain ⟨_, b, hb, rfl⟩ := hodd
    rw [← List.map_take, List.mem_map] at hb
    obtain ⟨v, hv, hv1⟩ := hb
    exact ⟨v, hv, by simpa using hv1⟩

end seeding

end Verif.Rng
