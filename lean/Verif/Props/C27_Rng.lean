import Verif.Lemmas.RngSeed
import Mathlib.Data.Rat.Defs
import Mathlib.Algebra.Order.Ring.Rat
import Mathlib.Tactic.NormNum
import Mathlib.Tactic.Positivity

/-!
# C27, C28, C29: the random generator

Numbers are counted in units of 2^-52 (`unit` is 1.0). `mem` is the memory a generator is created in and
`junk` the uninitialised part of a local array: both hold anything.
-/

namespace Verif.Rng

/-- Numbers `x 0, x 1, …` between 0 and 1, each the sum modulo 1 of those 10 and 7 places before. -/
structure LaggedFibonacci (x : Nat → Int) : Prop where
  range : ∀ n, 0 ≤ x n ∧ x n < unit
  lag : ∀ n, x (n + 10) = (x n + x (n + 3)) % unit

/-- The drawn numbers are the first ten of every nineteen. -/
def tenOfNineteen (x : Nat → Int) (k : Nat) : Int := x (19 * (k / 10) + k % 10)

/-- **C28.** To each value `s` of the low 30 bits of the seed belongs a lagged Fibonacci sequence, of which
no ten successive members are all even (so it never becomes all zero), such that after creating a generator with
such a seed, in memory holding anything, any number of draws succeeds (no access outside an array) and
gives the first ten of every nineteen members. The same after re-seeding a generator in any condition. -/
theorem draws_lagged_fibonacci (s : Nat) (hs : s < 2 ^ 30) :
    ∃ x : Nat → Int, LaggedFibonacci x ∧ (∀ n, ∃ i < 10, x (n + i) % 2 = 1) ∧
      ∀ (seed : Int) (junk : List Int) (mem : Rng) (n : Nat), low30 seed = s → junk.length = 9 → mem.Sized →
        (∃ r r', new junk mem seed = .ok r ∧ draws n r = .ok ((List.range n).map (tenOfNineteen x), r')) ∧
        (∃ r r', setSeed junk mem seed = .ok r ∧ draws n r = .ok ((List.range n).map (tenOfNineteen x), r')) := by
  obtain ⟨x, hx, hr, ho, hseed⟩ := setSeed_spec s hs
  refine ⟨x, ⟨hr, fun n => by rw [hx, modSum_eq (hr n).1 (hr _).1]⟩, ho, ?_⟩
  intro seed junk mem n hlow hj hm
  have main : ∀ mem : Rng, mem.Sized →
      ∃ r r', setSeed junk mem seed = .ok r ∧ draws n r = .ok ((List.range n).map (tenOfNineteen x), r') := by
    intro mem hm
    obtain ⟨r, e, hp, hsz, hh⟩ := hseed seed junk mem hlow hj hm
    have hst : Stands x r 0 := ⟨hsz, hh, by rw [hp]; rfl, fun h => absurd rfl h⟩
    obtain ⟨r', e', _⟩ := draws_spec hx hr n hst
    refine ⟨r, r', e, ?_⟩
    rw [e']
    simp only [Nat.zero_add]
    rfl
  exact ⟨main { mem with ptr := .sentinel } ⟨hm.ranU, hm.buf⟩, main mem hm⟩

/-- **C27, range.** Every number drawn is at least 0 and less than 1, for every seed and every number of
draws, and no array access leaves its array. -/
theorem draws_in_range (seed : Int) (junk : List Int) (mem : Rng) (n : Nat) (hj : junk.length = 9)
    (hm : mem.Sized) :
    ∃ r vs r', new junk mem seed = .ok r ∧ draws n r = .ok (vs, r') ∧ vs.length = n ∧
      ∀ v ∈ vs, 0 ≤ v ∧ v < unit := by
  obtain ⟨x, hx, _, h⟩ := draws_lagged_fibonacci (low30 seed) (low30_lt seed)
  obtain ⟨⟨r, r', e1, e2⟩, _⟩ := h seed junk mem n rfl hj hm
  refine ⟨r, _, r', e1, e2, by simp, ?_⟩
  intro v hv
  obtain ⟨k, _, rfl⟩ := List.mem_map.mp hv
  exact hx.range _

/-- **C27, reproducibility.** Seeds with the same low 30 bits give the same numbers, whatever the memory held
and whatever was drawn before (`mem` and `mem'` are arbitrary generators). -/
theorem draws_reproducible (seed seed' : Int) (hseed : low30 seed = low30 seed') (junk junk' : List Int)
    (mem mem' : Rng) (n : Nat) (hj : junk.length = 9) (hj' : junk'.length = 9) (hm : mem.Sized) (hm' : mem'.Sized) :
    ∃ vs r r1 r' r1', setSeed junk mem seed = .ok r ∧ draws n r = .ok (vs, r1) ∧
      new junk' mem' seed' = .ok r' ∧ draws n r' = .ok (vs, r1') := by
  obtain ⟨x, hx, _, h⟩ := draws_lagged_fibonacci (low30 seed) (low30_lt seed)
  obtain ⟨_, r, r1, e1, e2⟩ := h seed junk mem n rfl hj hm
  obtain ⟨⟨r', r1', e1', e2'⟩, _⟩ := h seed' junk' mem' n hseed.symm hj' hm'
  exact ⟨_, r, r1, r', r1', e1, e2, e1', e2'⟩

/-- The low 30 bits of a seed: the seed modulo 2^30, also for negative seeds. -/
example : low30 (-1) = 2 ^ 30 - 1 ∧ low30 (2 ^ 30 + 5) = 5 := by decide

/-- Drawing keeps a generator re-seedable: the arrays keep their sizes. -/
theorem draws_sized (seed : Int) (junk : List Int) (mem : Rng) (n : Nat) (hj : junk.length = 9)
    (hm : mem.Sized) : ∃ r vs r', new junk mem seed = .ok r ∧ draws n r = .ok (vs, r') ∧ r'.Sized := by
  obtain ⟨x, hx, hr, _, hseed⟩ := setSeed_spec (low30 seed) (low30_lt seed)
  obtain ⟨r, e, hp, hsz, hh⟩ := hseed seed junk { mem with ptr := .sentinel } rfl hj ⟨hm.ranU, hm.buf⟩
  have hst : Stands x r 0 := ⟨hsz, hh, by rw [hp]; rfl, fun h => absurd rfl h⟩
  obtain ⟨r', e', h'⟩ := draws_spec hx hr n hst
  exact ⟨r, _, r', e, e', h'.sized⟩

/-- No rounding: a sum of two members is less than 2^53 units, so it is a `double`, and so are all numbers
computed while seeding (they are members of the range too, see `bootstrap_spec`, `seedLoop_inUnit`). -/
theorem sums_exact {x : Nat → Int} (hx : LaggedFibonacci x) (m n : Nat) : 0 ≤ x m + x n ∧ x m + x n < 2 ^ 53 := by
  have := hx.range m
  have := hx.range n
  unfold unit at *
  omega

/-- Non-vacuity: the generator in some memory, seeded with 42 and with 42 + 2^30: the first twelve numbers. -/
def someMemory : Rng := ⟨List.replicate 10 3, List.replicate 19 (-5), .at 4⟩

example : someMemory.Sized ∧ (List.replicate 9 (77 : Int)).length = 9 := ⟨⟨rfl, rfl⟩, rfl⟩

def firstDraws (n : Nat) (junk : List Int) (mem : Rng) (seed : Int) : Option (List Int) :=
  match (do draws n (← new junk mem seed) : Except Fault _) with
  | .ok (vs, _) => some vs
  | .error _ => none

example : firstDraws 12 (List.replicate 9 77) someMemory 42 =
      firstDraws 12 (List.replicate 9 (-1)) ⟨List.replicate 10 0, List.replicate 19 0, .at 0⟩ (42 + 2 ^ 30) ∧
    (firstDraws 12 (List.replicate 9 77) someMemory 42).isSome = true ∧
    firstDraws 12 (List.replicate 9 77) someMemory 42 ≠ firstDraws 12 (List.replicate 9 77) someMemory 43 := by
  decide +kernel

/-! ## C29 Gaussian noise -/

section gauss
variable {K : Type} [Field K] [LinearOrder K] [IsStrictOrderedRing K]

/-- What is used of the rounding of `double` arithmetic: it is monotone and leaves the numbers that are
doubles alone, among them the small integers and `c` times a power of two. -/
structure Rounding (rnd : K → K) (c : K) : Prop where
  mono : ∀ a b, a ≤ b → rnd a ≤ rnd b
  zero : rnd 0 = 0
  one : rnd 1 = 1
  two : rnd 2 = 2
  three : rnd 3 = 3
  four : rnd 4 = 4
  c2 : rnd (2 * c) = 2 * c
  c2neg : rnd (-(2 * c)) = -(2 * c)
  c4 : rnd (4 * c) = 4 * c

/-- **C29.** Whatever four numbers between 0 and 1 are drawn, with rounding after each operation, the
gaussian lies between ±2c, where c is the constant 1.73205080757. -/
theorem gauss_bounded (rnd : K → K) (c : K) (hc : 0 ≤ c) (hr : Rounding rnd c) (v0 v1 v2 v3 : K)
    (h0 : 0 ≤ v0 ∧ v0 ≤ 1) (h1 : 0 ≤ v1 ∧ v1 ≤ 1) (h2 : 0 ≤ v2 ∧ v2 ≤ 1) (h3 : 0 ≤ v3 ∧ v3 ≤ 1) :
    -(2 * c) ≤ gauss rnd c v0 v1 v2 v3 ∧ gauss rnd c v0 v1 v2 v3 ≤ 2 * c := by
  have lo : ∀ a, 0 ≤ a → 0 ≤ rnd a := fun a ha => by have := hr.mono 0 a ha; rwa [hr.zero] at this
  have hi : ∀ a b, rnd b = b → a ≤ b → rnd a ≤ b := fun a b hb hab => by
    have := hr.mono a b hab; rwa [hb] at this
  have s0 := lo (0 + v0) (by linarith [h0.1])
  have t0 := hi (0 + v0) 1 hr.one (by linarith [h0.2])
  have s1 := lo (rnd (0 + v0) + v1) (by linarith [h1.1])
  have t1 := hi (rnd (0 + v0) + v1) 2 hr.two (by linarith [h1.2])
  have s2 := lo (rnd (rnd (0 + v0) + v1) + v2) (by linarith [h2.1])
  have t2 := hi (rnd (rnd (0 + v0) + v1) + v2) 3 hr.three (by linarith [h2.2])
  have s3 := lo (rnd (rnd (rnd (0 + v0) + v1) + v2) + v3) (by linarith [h3.1])
  have t3 := hi (rnd (rnd (rnd (0 + v0) + v1) + v2) + v3) 4 hr.four (by linarith [h3.2])
  unfold gauss
  generalize rnd (rnd (rnd (rnd (0 + v0) + v1) + v2) + v3) = s at s3 t3
  have p0 := lo (s * c) (mul_nonneg s3 hc)
  have p1 := hi (s * c) (4 * c) hr.c4 (mul_le_mul_of_nonneg_right t3 hc)
  dsimp only
  constructor
  · have := hr.mono (-(2 * c)) (rnd (s * c) - 2 * c) (by linarith)
    rwa [hr.c2neg] at this
  · exact hi _ _ hr.c2 (by linarith)

/-- With `c` within 10^-15 of 1.73205080757 this is ±2√3 up to 10^-11. -/
theorem gauss_bounded_numeric (rnd : K → K) (c : K) (hc0 : 1.73205080757 - 1 / 10 ^ 15 ≤ c)
    (hc1 : c ≤ 1.73205080757 + 1 / 10 ^ 15) (hr : Rounding rnd c) (v0 v1 v2 v3 : K)
    (h0 : 0 ≤ v0 ∧ v0 ≤ 1) (h1 : 0 ≤ v1 ∧ v1 ≤ 1) (h2 : 0 ≤ v2 ∧ v2 ≤ 1) (h3 : 0 ≤ v3 ∧ v3 ≤ 1) :
    gauss rnd c v0 v1 v2 v3 ^ 2 ≤ 12 + 1 / 10 ^ 10 := by
  have hc : 0 ≤ c := le_trans (by norm_num) hc0
  obtain ⟨a, b⟩ := gauss_bounded rnd c hc hr v0 v1 v2 v3 h0 h1 h2 h3
  have hsq : gauss rnd c v0 v1 v2 v3 ^ 2 ≤ (2 * c) ^ 2 := sq_le_sq' a b
  have : (2 * c) ^ 2 ≤ (2 * (1.73205080757 + 1 / 10 ^ 15)) ^ 2 :=
    pow_le_pow_left₀ (by linarith) (by linarith) 2
  refine hsq.trans (this.trans ?_)
  norm_num

/-- Non-vacuity: exact arithmetic is a rounding. -/
example : Rounding (fun a : ℚ => a) 1.73205080757 := ⟨fun _ _ h => h, rfl, rfl, rfl, rfl, rfl, rfl, rfl, rfl⟩

/-- The bounds are attained. -/
example : gauss (fun a : ℚ => a) 1.73205080757 0 0 0 0 = -3.46410161514 ∧
    gauss (fun a : ℚ => a) 1.73205080757 1 1 1 1 = 3.46410161514 := by norm_num [gauss]

end gauss

end Verif.Rng
