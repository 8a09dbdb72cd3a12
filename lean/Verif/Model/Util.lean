import Verif.Model.Mem
import Verif.Model.CurveApi
/-!
# `src/util.rs`

`cpus` is the value of `num_cpus::get()`, at least 1.  `usize`/`u32` index arithmetic is over `ℕ`:
all indices are below `2^32`.  A panic is `none`.
-/
namespace Halo
namespace Util

section field
variable {F : Type} [Field F]

/-- `src/util.rs:32-41` `compute_inner_product`. -/
def computeInnerProduct (a b : List F) : Option F :=
  if a.length ≠ b.length then none
  else some ((a.zip b).foldl (fun acc p => acc + p.1 * p.2) 0)

/-- `src/util.rs:247-254` `bitreverse`. -/
def bitreverse (n l : ℕ) : ℕ :=
  ((List.range l).foldl (fun (s : ℕ × ℕ) _ => ((s.1 <<< 1) ||| (s.2 &&& 1), s.2 >>> 1)) (0, n)).1

/-- `src/util.rs:272-279`: the loop over `j` in `serial_fft`. -/
def fftBlock (k m : ℕ) (wm : F) (a : Array F) : Option (Array F × F) :=
  (List.range m).foldlM (fun (s : Array F × F) j => do
    let (a, w) := s
    let t ← Mem.get a (k + j + m)
    let t := t * w
    let u ← Mem.get a (k + j)
    let a ← Mem.set a (k + j + m) (u - t)
    let u ← Mem.get a (k + j)
    let a ← Mem.set a (k + j) (u + t)
    let w := w * wm
    some (a, w)) (a, 1)

/-- `src/util.rs:268-282`: one pass; the `while k < n` loop visits `k = 0, 2m, 4m, ... < n`. -/
def fftPass (n m : ℕ) (omega : F) (a : Array F) : Option (Array F) :=
  let wm := omega ^ (n / (2 * m))
  (List.range ((n + 2 * m - 1) / (2 * m))).foldlM (fun a t =>
    (fftBlock (t * (2 * m)) m wm a).map Prod.fst) a

/-- `src/util.rs:246-286` `serial_fft`; `omega.pow` is C06. -/
def serialFft (a : Array F) (omega : F) (logN : ℕ) : Option (Array F) := do
  let n := a.size
  if n ≠ 1 <<< logN then none
  let a ← (List.range n).foldlM (fun a k =>
    let rk := bitreverse k logN
    if k < rk then Mem.swap a rk k else some a) a
  let s ← (List.range logN).foldlM (fun (s : Array F × ℕ) _ => do
    let a ← fftPass n s.2 omega s.1
    some (a, s.2 * 2)) (a, 1)
  some s.1

/-- `src/util.rs:300-319`: the work of one thread of `parallel_fft`. -/
def fftThread (a : Array F) (omega : F) (logN logNewN cpus j : ℕ) (newOmega : F) :
    Option (Array F) := do
  let tmp : Array F := Array.replicate (1 <<< logNewN) 0
  let omegaJ := omega ^ j
  let omegaStep := omega ^ (j <<< logNewN)
  let s ← (List.range (1 <<< logNewN)).foldlM (fun (s : Array F × F) i => do
    let s ← (List.range cpus).foldlM (fun (s : Array F × F) sh => do
      let (tmp, elt) := s
      let idx := (i + (sh <<< logNewN)) % (1 <<< logN)
      let t ← Mem.get a idx
      let t := t * elt
      let old ← Mem.get tmp i
      let tmp ← Mem.set tmp i (old + t)
      some (tmp, elt * omegaStep)) s
    some (s.1, s.2 * omegaJ)) (tmp, 1)
  serialFft s.1 newOmega logNewN

/-- `src/util.rs:288-329` `parallel_fft`.  Each thread owns one vector of `tmp`. -/
def parallelFft (a : Array F) (omega : F) (logN logCpus : ℕ) : Option (Array F) := do
  if logN < logCpus then none
  let cpus := 1 <<< logCpus
  let logNewN := logN - logCpus
  let newOmega := omega ^ cpus
  let tmp ← (List.range cpus).mapM fun j => fftThread a omega logN logNewN cpus j newOmega
  let tmp := tmp.toArray
  let mask := (1 <<< logCpus) - 1
  (List.range a.size).foldlM (fun out idx => do
    let row ← Mem.get tmp (idx &&& mask)
    let v ← Mem.get row (idx >>> logCpus)
    Mem.set out idx v) a

/-- Worker of `log2Floor`, with fuel. -/
def log2FloorAux (num : ℕ) : ℕ → ℕ → ℕ
  | 0, pow => pow
  | fuel + 1, pow => if 1 <<< (pow + 1) ≤ num then log2FloorAux num fuel (pow + 1) else pow

/-- `src/util.rs:223-233` `log2_floor`; `num` iterations are enough. -/
def log2Floor (num : ℕ) : Option ℕ := if num = 0 then none else some (log2FloorAux num num 0)

/-- `src/util.rs:235-244` `best_fft`. -/
def bestFft (cpus : ℕ) (a : Array F) (omega : F) (logN : ℕ) : Option (Array F) := do
  let logCpus ← log2Floor cpus
  if logN ≤ logCpus then serialFft a omega logN
  else parallelFft a omega logN logCpus

variable [FieldApi F]

/-- Worker of `domainSize`: the `while m < coeffs_of_result` loop of
`src/util.rs:146-157`; it panics when `exp` reaches `F::S = 32`, so 32 units of fuel suffice. -/
def domainSizeAux (coeffs : ℕ) : ℕ → ℕ → ℕ → Option (ℕ × ℕ)
  | 0, _, _ => none
  | fuel + 1, m, exp =>
    if m < coeffs then
      let m := m * 2
      let exp := exp + 1
      if exp ≥ 32 then none else domainSizeAux coeffs fuel m exp
    else some (m, exp)

/-- Pointwise `*a *= *b` (`src/util.rs:172-191`), in one or several chunks: each thread owns one
chunk of `a` and reads the corresponding chunk of `b`. -/
def mulPairwise (cpus : ℕ) (a b : List F) : Option (List F) :=
  if a.length > cpus then do
    let chunk := a.length / cpus
    let ca ← chunks chunk a
    let cb ← chunks chunk b
    some ((ca.zip cb).map fun p => List.zipWith (· * ·) p.1 p.2).flatten
  else some (List.zipWith (· * ·) a b)

/-- `*a *= minv` (`src/util.rs:197-216`), in one or several chunks. -/
def scaleAll (cpus : ℕ) (a : List F) (minv : F) : Option (List F) :=
  if a.length > cpus then do
    let chunk := a.length / cpus
    let ca ← chunks chunk a
    some (ca.map fun c => c.map (· * minv)).flatten
  else some (a.map (· * minv))

/-- `src/util.rs:141-221` `multiply_polynomials`.  `a.len() - 1` panics on an empty vector. -/
def multiplyPolynomials (cpus : ℕ) (a b : List F) : Option (List F) := do
  if a.length = 0 ∨ b.length = 0 then none
  let degree := (a.length - 1) + (b.length - 1)
  let coeffs := degree + 1
  let (m, exp) ← domainSizeAux coeffs 33 1 0
  let alpha := (List.range (32 - exp)).foldl (fun alpha _ => alpha ^ 2) (FieldApi.alpha : F)
  let a := (a ++ List.replicate (m - a.length) 0).toArray
  let b := (b ++ List.replicate (m - b.length) 0).toArray
  let a ← bestFft cpus a alpha exp
  let b ← bestFft cpus b alpha exp
  let a ← mulPairwise cpus a.toList b.toList
  let alphaInv ← FieldApi.invert alpha
  let a ← bestFft cpus a.toArray alphaInv exp
  let minv ← FieldApi.invert (FieldApi.fromU64 (BitVec.ofNat 64 m) : F)
  let a ← scaleAll cpus a.toList minv
  some (a.take coeffs)

/-- `src/util.rs:351-375` `get_challenge_scalar`, after `get_lower_128`. -/
def expandChallenge (challenge : BitVec 128) : F :=
  let acc : F := 1
  let acc := acc + acc
  let acc := acc + 1
  (List.range' 1 63).foldl (fun acc i =>
    let shouldNegate := (challenge >>> (i * 2)) &&& 1#128 == 1#128
    let shouldEndo := (challenge >>> (i * 2 + 1)) &&& 1#128 == 1#128
    let acc := acc + acc
    let acc := if shouldNegate then acc - 1 else acc + 1
    if shouldEndo then acc * FieldApi.beta else acc) acc

/-- `src/util.rs:351-375` `get_challenge_scalar::<F1, F2>`. -/
def getChallengeScalar {F1 : Type} [FieldApi F1] (challenge : F1) : F :=
  expandChallenge (FieldApi.lower128 challenge)

omit [FieldApi F] in
/-- `src/util.rs:377-390` `compute_b`; the recursion of the code removes the last elements, here
the vectors are given reversed. -/
def computeBRev (x : F) : List F → List F → Option F
  | [u], [ui] => some (ui + u * x)
  | u :: us, ui :: uis => (computeBRev (x ^ 2) us uis).map fun r => (ui + u * x) * r
  | _, _ => none

omit [FieldApi F] in
/-- `src/util.rs:377-390` `compute_b`. -/
def computeB (x : F) (challenges challengesInv : List F) : Option F :=
  if challenges.isEmpty then none
  else if challenges.length ≠ challengesInv.length then none
  else computeBRev x challenges.reverse challengesInv.reverse

omit [FieldApi F] in
/-- `src/util.rs:392-406` `compute_g_coeffs_for_inner_product`; `lg_i` is the position of the
highest set bit of `i`. -/
def computeGCoeffs (challengesSq : List F) (allinv : F) : Option (Array F) :=
  let lgN := challengesSq.length
  let n := 1 <<< lgN
  (List.range' 1 (n - 1)).foldlM (fun (s : Array F) i => do
    let lgI := Nat.log2 i
    let k := 1 <<< lgI
    let u ← challengesSq[(lgN - 1) - lgI]?
    let v ← Mem.get s (i - k)
    some (s.push (v * u))) #[allinv]

end field

section curve
variable {C S : Type} [CurveApi C S]

/-- `src/util.rs:5-30` `parallel_generator_collapse`; the threads own the chunks of `g_lo`. -/
def generatorCollapse (cpus : ℕ) (g : List C) (challenge challengeInv : S) : Option (List C) := do
  let l := g.length / 2
  let gLo := g.take l
  let gHi := g.drop l
  let chunk := l / cpus
  let chunk := if chunk < cpus then l else chunk
  let cLo ← chunks chunk gLo
  let cHi ← chunks chunk gHi
  let lo := (cLo.zip cHi).map fun p => List.zipWith
    (fun lo hi => CurveApi.add (CurveApi.mul lo challengeInv) (CurveApi.mul hi challenge)) p.1 p.2
  some (lo.flatten ++ gHi)

/-- `src/util.rs:19-28`: the threads spawned by `parallel_generator_collapse`, one per chunk; each
owns its chunk of `g_lo` and updates it in place, one element per atomic step. -/
def collapseThreads (cpus : ℕ) (g : List C) (challenge challengeInv : S) :
    Option (List (Thread (List C))) := do
  let l := g.length / 2
  let chunk := l / cpus
  let chunk := if chunk < cpus then l else chunk
  let cLo ← chunks chunk (g.take l)
  let cHi ← chunks chunk (g.drop l)
  some ((cLo.zip cHi).map fun p => ⟨p.1, (p.2.zipIdx.take p.1.length).map fun e s =>
    s.modify e.2 fun lo => CurveApi.add (CurveApi.mul lo challengeInv) (CurveApi.mul e.1 challenge)⟩)

/-- `src/util.rs:69-87` `get_at`; the eight bytes are zero-padded, which does not change their
little-endian value. -/
def getAt (segment c : ℕ) (bytes : Vector (BitVec 8) 32) : ℕ :=
  let skipBits := segment * c
  let skipBytes := skipBits / 8
  if skipBytes ≥ 32 then 0
  else
    let v := (bytes.toList.drop skipBytes).take 8
    let tmp := leNat v
    let tmp := tmp >>> (skipBits - skipBytes * 8)
    tmp % (1 <<< c)

/-- `src/util.rs:96-103`: fill the buckets. -/
def fillBuckets (segment c : ℕ) (pairs : List (Vector (BitVec 8) 32 × C)) : Option (Array C) :=
  pairs.foldlM (fun (buckets : Array C) p => do
    let coeff := getAt segment c p.1
    if coeff ≠ 0 then
      let old ← Mem.get buckets (coeff - 1)
      Mem.set buckets (coeff - 1) (CurveApi.add old p.2)
    else some buckets) (Array.replicate ((1 <<< c) - 1) (CurveApi.zero (S := S)))

/-- `src/util.rs:105-113`: summation by parts. -/
def sumBuckets (buckets : List C) (acc : C) : C :=
  (buckets.reverse.foldl (fun (s : C × C) exp =>
    let running := CurveApi.add s.1 exp
    (running, CurveApi.add s.2 running)) (CurveApi.zero (S := S), acc)).2

/-- `src/util.rs:60-124`: the work of one thread of `multiexp`.  `lnCeil n` stands for
`(n as f64).ln().ceil()`, not modelled further; see `multiexp`. -/
def multiexpChunk [FieldApi S] (lnCeil : ℕ → ℕ) (coeffs : List S) (bases : List C) : Option C :=
  let coeffs := coeffs.map FieldApi.toBytes
  let c := if bases.length < 32 then 3 else lnCeil bases.length
  if c = 0 then none
  else
    let segments := 256 / c + 1
    (List.range segments).reverse.foldlM (fun acc segment => do
      let acc := (List.range c).foldl (fun acc _ => CurveApi.double acc) acc
      let buckets ← fillBuckets segment c (coeffs.zip bases)
      some (sumBuckets buckets.toList acc)) (CurveApi.zero : C)

/-- `src/util.rs:44-139` `multiexp`. -/
def multiexp [FieldApi S] (cpus : ℕ) (lnCeil : ℕ → ℕ) (coeffs : List S) (bases : List C) :
    Option C := do
  if coeffs.length ≠ bases.length then none
  if coeffs.length > cpus then
    let chunk := coeffs.length / cpus
    let cc ← chunks chunk coeffs
    let cb ← chunks chunk bases
    let results ← (cc.zip cb).mapM fun p => multiexpChunk lnCeil p.1 p.2
    some (results.foldl CurveApi.add CurveApi.zero)
  else
    some ((coeffs.zip bases).foldl (fun acc p => CurveApi.add acc (CurveApi.mul p.2 p.1))
      CurveApi.zero)

/-- `src/util.rs:408-416` `compute_g_for_inner_product`. -/
def computeG [Field S] [FieldApi S] (cpus : ℕ) (lnCeil : ℕ → ℕ) (generators : List C)
    (challengesSq : List S) (allinv : S) : Option C := do
  let s ← computeGCoeffs challengesSq allinv
  multiexp cpus lnCeil s.toList generators

end curve
end Util
end Halo
