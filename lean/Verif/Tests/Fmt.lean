import Verif.Tests.Basic
/-!
# f/format_test.go
-/
namespace Verif.Tests
open Verif

/-- `TestFormat` (f/format_test.go:10-44). -/
example : ∀ t ∈ ([
    (b!"", [], b!""),
    (b!"hello", [], b!"hello"),
    (b!"one apple", [.int 1], b!"one apple"),
    (b!"%d apples", [.int 2], b!"2 apples"),
    (b!"%d apples", [], b!"%d apples"),
    (b!"%s have %[1]d apples", [.int 1], b!"%!s(int=1) have 1 apples"),
    (b!"%s have %d apples", [.str b!"Tom"], b!"Tom have %!d(string=) apples"),
    (b!"%[2]s have %[1]d apples", [.int 2, .str b!"Tom"], b!"Tom have 2 apples"),
    (b!"%d 个苹果", [.int 1], b!"1 个苹果")] : List (Str × List Any × Str)),
    Fmt.format anyEnv t.1 t.2.1 = t.2.2 := by decide +kernel

/-- `TestDefaultPlural` (f/format_test.go:46-70). -/
example : ∀ t ∈ ([
    (b!"singular", b!"plural", 1, [], b!"singular"),
    (b!"singular", b!"plural", 0, [], b!"plural"),
    (b!"singular", b!"plural", 2, [], b!"plural"),
    (b!"one apple", b!"%d apples", 1, [.int 1], b!"one apple"),
    (b!"one apple", b!"%d apples", 2, [.int 2], b!"2 apples")] : List (Str × Str × Int64 × List Any × Str)),
    Fmt.defaultPlural anyEnv t.1 t.2.1 t.2.2.1 t.2.2.2.1 = t.2.2.2.2 := by decide +kernel

end Verif.Tests
