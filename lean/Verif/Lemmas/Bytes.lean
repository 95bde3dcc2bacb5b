/-! # Facts about all bytes -/
namespace Verif

/-- A property of all bytes is one of the 256 numbers below 256. -/
theorem u8 {P : UInt8 → Prop} (h : ∀ i : Fin 256, P (UInt8.ofFin i)) (b : UInt8) : P b := by
  have := h b.toFin
  simpa using this

end Verif
