import Verif.Loop
import Verif.ForInt
import Mathlib.Algebra.Order.Floor.Ring
import Mathlib.Data.Rat.Floor
import Mathlib.Algebra.Order.Ring.Rat
import Mathlib.Algebra.Field.Rat
import Mathlib.Order.WithBot

/-!
# Model of SLIC superpixels

vl/slic.c.  `float` is `ℚ` and rounding is not modelled; infinity is `⊤`.
-/

namespace Verif.Slic

/-- Reduction to 32 bits. -/
def u32 (x : Nat) : Nat := x % 2 ^ 32

/-! ## Elimination of the small regions -/

/-- `dx` and `dy`, vl/slic.c:347-348. -/
def dirs : List (Int × Int) := [(1, 0), (-1, 0), (0, 1), (0, -1)]

/-- `cleaned`, and the part in use of the array `segment`. -/
structure St where
  cleaned : List Nat
  members : List Nat

/-- The search of `cleanedLabel`, vl/slic.c:363-376. -/
def findLabel (width height : Nat) (cleaned : List Nat) (pixel label : Nat) : Option Nat :=
  let x : Int := (pixel % width : Nat)
  let y : Int := (pixel / width : Nat)
  dirs.foldlM (fun cleanedLabel d =>
    let xp := x + d.1
    let yp := y + d.2
    if 0 ≤ xp ∧ xp < width ∧ 0 ≤ yp ∧ yp < height then do
      let c ← rdI cleaned (xp + yp * width)
      if c ≠ 0 then some c else some cleanedLabel
    else some cleanedLabel) (u32 (label + 1))

/-- The visit of the neighbours of one pixel, vl/slic.c:380-394; `segment` has room for `width * height` elements. -/
def expand (width height : Nat) (segmentation : List Nat) (label : Nat) (opn : Nat) (s : St) : Option St :=
  let x : Int := (opn % width : Nat)
  let y : Int := (opn / width : Nat)
  dirs.foldlM (fun s d =>
    let xp := x + d.1
    let yp := y + d.2
    if 0 ≤ xp ∧ xp < width ∧ 0 ≤ yp ∧ yp < height then do
      let c ← rdI s.cleaned (xp + yp * width)
      if c = 0 then do
        let l ← rdI segmentation (xp + yp * width)
        if l = label then do
          let cleaned ← wrI s.cleaned (xp + yp * width) (u32 (label + 1))
          if s.members.length < width * height then some ⟨cleaned, s.members ++ [(xp + yp * width).toNat]⟩ else none
        else some s
      else some s
    else some s) s

/-- The loop that expands the segment, vl/slic.c:378-395. -/
def grow (width height : Nat) (segmentation : List Nat) (label : Nat) : Nat → Nat → St → Option St
  | 0, _, _ => none
  | fuel + 1, numExpanded, s =>
    if numExpanded < s.members.length then do
      let opn ← rd s.members numExpanded
      let s ← expand width height segmentation label opn s
      grow width height segmentation label fuel (numExpanded + 1) s
    else some s

/-- The body of the loop over the pixels, vl/slic.c:353-402. -/
def cleanPixel (width height : Nat) (segmentation : List Nat) (minRegionSize : Nat) (pixel : Nat) (cleaned : List Nat) : Option (List Nat) := do
  let c ← rd cleaned pixel
  if c ≠ 0 then some cleaned else do
  let label ← rd segmentation pixel
  let cleaned ← wr cleaned pixel (u32 (label + 1))
  let cleanedLabel ← findLabel width height cleaned pixel label
  let s ← grow width height segmentation label (width * height + 1) 0 ⟨cleaned, [pixel]⟩
  if s.members.length < minRegionSize then
    s.members.reverse.foldlM (fun cleaned q => wr cleaned q cleanedLabel) s.cleaned
  else some s.cleaned

/-- The elimination of the small regions, vl/slic.c:339-410. -/
def clean (width height minRegionSize : Nat) (segmentation : List Nat) : Option (List Nat) := do
  let cleaned ← iter (width * height) (cleanPixel width height segmentation minRegionSize) (List.replicate (width * height) 0)
  iter (width * height) (fun pixel cleaned => do
    let c ← rd cleaned pixel
    wr cleaned pixel (u32 (c + (2 ^ 32 - 1)))) cleaned

/-! ## The regions -/

/-- `numRegionsX` or `numRegionsY`, vl/slic.c:181-182. -/
def numRegions1 (size regionSize : Nat) : Nat := ⌈(size : ℚ) / regionSize⌉.toNat

/-- The edge map, vl/slic.c:203-218. -/
def edgeMap (image : List ℚ) (width height numChannels : Nat) : Option (List ℚ) :=
  iter numChannels (fun (k : Nat) (e : List ℚ) => forInt 1 ((height : Int) - 2) (fun y e => forInt 1 ((width : Int) - 2) (fun x e => do
    let at' := fun (x y : Int) => rdI image (x + y * width + k * width * height)
    let a ← at' (x - 1) y
    let b ← at' (x + 1) y
    let c ← at' x (y + 1)
    let d ← at' x (y - 1)
    let o ← rdI e (x + y * width)
    wrI e (x + y * width) (o + ((a - b) * (a - b) + (c - d) * (c - d)))) e) e) (List.replicate (width * height) 0)

/-- `minEdgeValue`, `centerx` and `centery`. -/
structure Seed where
  value : WithTop ℚ
  x : Int
  y : Int

/-- The place of one initial centre, vl/slic.c:226-246. -/
def seed (e : List ℚ) (width height regionSize : Nat) (u v : Nat) : Option Seed :=
  let x := ⌊(regionSize : ℚ) * (u + 1 / 2) + 1 / 2⌋
  let y := ⌊(regionSize : ℚ) * (v + 1 / 2) + 1 / 2⌋
  let x := max (min x ((width : Int) - 1)) 0
  let y := max (min y ((height : Int) - 1)) 0
  forInt (max 0 (y - 1)) (min ((height : Int) - 1) (y + 1)) (fun yp s => forInt (max 0 (x - 1)) (min ((width : Int) - 1) (x + 1)) (fun xp s => do
    let t ← rdI e (xp + yp * width)
    if (t : WithTop ℚ) < s.value then some ⟨t, xp, yp⟩ else some s) s) ⟨⊤, 0, 0⟩

/-- The initial centres, vl/slic.c:220-255; `centers` is the block as allocated. -/
def initCenters (image e : List ℚ) (width height numChannels regionSize : Nat) (centers : List ℚ) : Option (List ℚ) := do
  let s ← iter (numRegions1 height regionSize) (fun v s => iter (numRegions1 width regionSize) (fun u (s : List ℚ × Nat) => do
    let c ← seed e width height regionSize u v
    let centers ← wr s.1 s.2 (c.x : ℚ)
    let centers ← wr centers (s.2 + 1) (c.y : ℚ)
    iter numChannels (fun (k : Nat) (s : List ℚ × Nat) => do
      let z ← rdI image (c.x + c.y * width + k * width * height)
      let centers ← wr s.1 s.2 z
      some (centers, s.2 + 1)) (centers, s.2 + 2)) s) (centers, 0)
  some s.1

/-- The distance of a pixel to the centre of a region, vl/slic.c:273-283. -/
def distance (image : List ℚ) (width height numChannels : Nat) (factor : ℚ) (centers : List ℚ) (x y : Nat) (region : Int) : Option ℚ := do
  let centerx ← rdI centers ((2 + numChannels : Nat) * region + 0)
  let centery ← rdI centers ((2 + numChannels : Nat) * region + 1)
  let spatial := ((x : ℚ) - centerx) * (x - centerx) + (y - centery) * (y - centery)
  let appearance ← iter numChannels (fun k appearance => do
    let centerz ← rdI centers ((2 + numChannels : Nat) * region + k + 2)
    let z ← rd image (x + y * width + k * width * height)
    some (appearance + (z - centerz) * (z - centerz))) 0
  some (appearance + factor * spatial)

/-- The assignment of one pixel, vl/slic.c:265-290, and the addition to the energy; the model gives up if the distance is still infinite. -/
def assignPixel (image : List ℚ) (width height numChannels regionSize : Nat) (factor : ℚ) (centers : List ℚ) (x y : Nat) (s : List Nat × ℚ) : Option (List Nat × ℚ) := do
  let u := ⌊(x : ℚ) / regionSize - 1 / 2⌋
  let v := ⌊(y : ℚ) / regionSize - 1 / 2⌋
  let numRegionsX := numRegions1 width regionSize
  let numRegionsY := numRegions1 height regionSize
  let r ← forInt (max 0 v) (min ((numRegionsY : Int) - 1) (v + 1)) (fun vp r => forInt (max 0 u) (min ((numRegionsX : Int) - 1) (u + 1)) (fun up (r : List Nat × WithTop ℚ) => do
    let region := up + vp * numRegionsX
    let d ← distance image width height numChannels factor centers x y region
    if r.2 > (d : WithTop ℚ) then do
      let seg ← wr r.1 (x + y * width) (u32 region.toNat)
      some (seg, (d : WithTop ℚ))
    else some r) r) (s.1, (⊤ : WithTop ℚ))
  match r.2 with
  | some d => some (r.1, s.2 + d)
  | none => none

/-- The assignment of the pixels and the energy, vl/slic.c:259-292. -/
def assign (image : List ℚ) (width height numChannels regionSize : Nat) (regularization : ℚ) (centers : List ℚ) (seg : List Nat) : Option (List Nat × ℚ) :=
  let factor := regularization / (regionSize * regionSize)
  iter height (fun y s => iter width (fun x s => assignPixel image width height numChannels regionSize factor centers x y s) s) (seg, 0)

/-- The masses and the sums of the centres, vl/slic.c:309-323. -/
def sums (image : List ℚ) (width height numChannels numRegions : Nat) (seg : List Nat) : Option (List Nat × List ℚ) :=
  iter height (fun y s => iter width (fun x (s : List Nat × List ℚ) => do
    let region ← rd seg (x + y * width)
    let m ← rd s.1 region
    let masses ← wr s.1 region (u32 (m + 1))
    let a ← rd s.2 (region * (2 + numChannels) + 0)
    let centers ← wr s.2 (region * (2 + numChannels) + 0) (a + x)
    let a ← rd centers (region * (2 + numChannels) + 1)
    let centers ← wr centers (region * (2 + numChannels) + 1) (a + y)
    let centers ← iter numChannels (fun k centers => do
      let a ← rd centers (region * (2 + numChannels) + k + 2)
      let z ← rd image (x + y * width + k * width * height)
      wr centers (region * (2 + numChannels) + k + 2) (a + z)) centers
    some (masses, centers)) s) (List.replicate (width * height) 0, List.replicate ((2 + numChannels) * numRegions) 0)

/-- The new centres, vl/slic.c:308-332. -/
def recompute (image : List ℚ) (width height numChannels numRegions : Nat) (seg : List Nat) : Option (List ℚ) := do
  let s ← sums image width height numChannels numRegions seg
  iter numRegions (fun region centers => do
    let m ← rd s.1 region
    let mass := max (m : ℚ) (1 / 10 ^ 8)
    iter (2 + numChannels) (fun j centers => do
      let c ← rd centers ((2 + numChannels) * region + j)
      wr centers ((2 + numChannels) * region + j) (c / mass)) centers) s.2

/-- The iterations, vl/slic.c:258-333: `left` are left, `it` are done. -/
def loop (image : List ℚ) (width height numChannels regionSize : Nat) (regularization : ℚ) : Nat → Nat → ℚ → ℚ → List ℚ → List Nat → Option (List Nat)
  | 0, _, _, _, _, seg => some seg
  | left + 1, it, previousEnergy, startingEnergy, centers, seg => do
    let (seg, energy) ← assign image width height numChannels regionSize regularization centers seg
    let startingEnergy := if it = 0 then energy else startingEnergy
    if it ≠ 0 ∧ previousEnergy - energy < 1 / 10 ^ 5 * (startingEnergy - energy) then some seg else do
    let centers ← recompute image width height numChannels (numRegions1 width regionSize * numRegions1 height regionSize) seg
    loop image width height numChannels regionSize regularization left (it + 1) energy startingEnergy centers seg

/-- `vl_slic_segment`, vl/slic.c:170-411; `centers` is the block as allocated, `seg` what the caller's array holds. -/
def segment (image : List ℚ) (width height numChannels regionSize : Nat) (regularization : ℚ) (minRegionSize : Nat) (centers : List ℚ) (seg : List Nat) : Option (List Nat) := do
  assert' (1 ≤ width ∧ 1 ≤ height ∧ 1 ≤ numChannels ∧ 1 ≤ regionSize ∧ 0 ≤ regularization)
  let e ← edgeMap image width height numChannels
  let centers ← initCenters image e width height numChannels regionSize centers
  let seg ← loop image width height numChannels regionSize regularization 100 0 0 0 centers seg
  clean width height minRegionSize seg

end Verif.Slic
