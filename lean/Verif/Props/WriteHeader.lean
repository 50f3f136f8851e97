/-
C101: the encoding of headers in terms of the gadgets that write them.
-/
import Verif.Props.Header
import Verif.Props.Write

namespace Ragu.Props
open Ragu Ragu.Pcd Ragu.Gadget
open Ragu.Write (vecBuf feed)
variable {F : Type} [Field F] [DecidableEq F] {N : ℕ}

/-- C101: writing a header gadget, padded and with its suffix, to a vector is the header encoding of its
elements, and fails exactly if there are too many. -/
theorem C101_header (hN : 0 < N) (s : Suffix) (g : Write.Gadget (Element F)) (hg : g.Fits) :
    (∀ es, padded N s g.elems = .ok es ↔
      (Write.Gadget.withSuffix (.padded N Element.zero g) (Element.constant (s.get : F))).write vecBuf [] =
        (es, .ok ())) ∧
    (padded N s g.elems = .error .malformedEncoding ↔
      ((Write.Gadget.withSuffix (.padded N Element.zero g) (Element.constant (s.get : F))).write vecBuf []).2 =
        .error .malformedEncoding) := by
  rw [padded_eq hN]
  by_cases hl : g.elems.length ≤ N - 1
  · have hf : (Write.Gadget.withSuffix (.padded N Element.zero g) (Element.constant (s.get : F))).Fits := by
      simp only [Write.Gadget.Fits, Write.Gadget.All]
      exact ⟨by omega, hg⟩
    rw [(C101_buffers hf [] 0).1, if_pos hl]
    simp [Write.Gadget.elems, headerEncoding]
  · have hf : ¬ (Write.Gadget.withSuffix (.padded N Element.zero g) (Element.constant (s.get : F))).Fits := by
      simp only [Write.Gadget.Fits, Write.Gadget.All]
      omega
    have hz : (Write.Gadget.withSuffix (.padded N Element.zero g) (Element.constant (s.get : F))).write vecBuf
        [] = (g.elems.take (N - 1), .error .malformedEncoding) := by
      rw [write_emit]
      simp only [emit, (good_emit g).2.2.1 hg, padOut, hN.ne', if_false, capOut, hl, seqOut]
      generalize g.elems.take (N - 1) = es
      have : ∀ (es l : List (Element F)), feed vecBuf (some Circuit.Err.malformedEncoding) es l =
          (l ++ es, .error .malformedEncoding) := by
        intro es
        induction es with
        | nil => intro l; simp [feed]
        | cons e es ih => intro l; simp [feed, vecBuf, ih]
      simp [this]
    rw [hz, if_neg hl]
    simp

/-- Three elements of a header. -/
example : (Write.Gadget.pair (.element Element.zero) (.array [.element Element.zero, .element
      (Element.constant 7)]) : Write.Gadget (Element F)).Fits ∧
    (Write.Gadget.pair (.element Element.zero) (.array [.element Element.zero, .element
      (Element.constant 7)]) : Write.Gadget (Element F)).elems.length = 3 := by
  simp [Write.Gadget.Fits, Write.Gadget.All, Write.AllList, Write.Gadget.elems, Write.elemsList]

end Ragu.Props
