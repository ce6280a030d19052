import Verif.Model.Values

/-!
# The unit tests of the library, evaluated in the model: doubles as fmt writes them

The checks of /repo/test/unit_test/test_format_emio_vs_fmt.cpp: the doubles of the test (given by their bits) in all its
formats without `#` and the texts the C standard prescribes, which is what fmt writes.  The texts were computed by another
implementation of these rules (that of Python).  Left out here, but confirmed with `#eval`: the formats with `#`, the
negative values, and the largest double as `f`.  These are no proofs of properties: they show that the model computes what
the authors of the library expect of the code.
-/

namespace Emio.Conformance.VsFmt

/-- Whether the model formats the double as expected. -/
def passes : String × Nat × String → Bool
  | (str, bits, text) =>
    formatStr str.toList [(FVal.core (.double bits)).farg (.core .double)] == .ok () text.toList

/-- test_format_emio_vs_fmt.cpp:12-63, "format double with emio vs fmt". -/
def doubles : List (String × Nat × String) := [
    ("{:}", 0, "0"), ("{:g}", 0, "0"), ("{:e}", 0, "0.000000e+00"), ("{:f}", 0, "0.000000"), ("{:.0}", 0, "0"),
    ("{:.0g}", 0, "0"), ("{:.0e}", 0, "0e+00"), ("{:.0f}", 0, "0"), ("{:.4}", 0, "0"), ("{:.4g}", 0, "0"),
    ("{:.4e}", 0, "0.0000e+00"), ("{:.4f}", 0, "0.0000"), ("{:}", 4607182418800017408, "1"),
    ("{:g}", 4607182418800017408, "1"), ("{:e}", 4607182418800017408, "1.000000e+00"),
    ("{:f}", 4607182418800017408, "1.000000"), ("{:.0}", 4607182418800017408, "1"),
    ("{:.0g}", 4607182418800017408, "1"), ("{:.0e}", 4607182418800017408, "1e+00"),
    ("{:.0f}", 4607182418800017408, "1"), ("{:.4}", 4607182418800017408, "1"), ("{:.4g}", 4607182418800017408, "1"),
    ("{:.4e}", 4607182418800017408, "1.0000e+00"), ("{:.4f}", 4607182418800017408, "1.0000"),
    ("{:}", 4622945017495814144, "12"), ("{:g}", 4622945017495814144, "12"),
    ("{:e}", 4622945017495814144, "1.200000e+01"), ("{:f}", 4622945017495814144, "12.000000"),
    ("{:.0}", 4622945017495814144, "1e+01"), ("{:.0g}", 4622945017495814144, "1e+01"),
    ("{:.0e}", 4622945017495814144, "1e+01"), ("{:.0f}", 4622945017495814144, "12"),
    ("{:.4}", 4622945017495814144, "12"), ("{:.4g}", 4622945017495814144, "12"),
    ("{:.4e}", 4622945017495814144, "1.2000e+01"), ("{:.4f}", 4622945017495814144, "12.0000"),
    ("{:}", 4638355772470722560, "123"), ("{:g}", 4638355772470722560, "123"),
    ("{:e}", 4638355772470722560, "1.230000e+02"), ("{:f}", 4638355772470722560, "123.000000"),
    ("{:.0}", 4638355772470722560, "1e+02"), ("{:.0g}", 4638355772470722560, "1e+02"),
    ("{:.0e}", 4638355772470722560, "1e+02"), ("{:.0f}", 4638355772470722560, "123"),
    ("{:.4}", 4638355772470722560, "123"), ("{:.4g}", 4638355772470722560, "123"),
    ("{:.4e}", 4638355772470722560, "1.2300e+02"), ("{:.4f}", 4638355772470722560, "123.0000"),
    ("{:}", 4653124412655009792, "1230"), ("{:g}", 4653124412655009792, "1230"),
    ("{:e}", 4653124412655009792, "1.230000e+03"), ("{:f}", 4653124412655009792, "1230.000000"),
    ("{:.0}", 4653124412655009792, "1e+03"), ("{:.0g}", 4653124412655009792, "1e+03"),
    ("{:.0e}", 4653124412655009792, "1e+03"), ("{:.0f}", 4653124412655009792, "1230"),
    ("{:.4}", 4653124412655009792, "1230"), ("{:.4g}", 4653124412655009792, "1230"),
    ("{:.4e}", 4653124412655009792, "1.2300e+03"), ("{:.4f}", 4653124412655009792, "1230.0000"),
    ("{:}", 4667987610839285760, "12300"), ("{:g}", 4667987610839285760, "12300"),
    ("{:e}", 4667987610839285760, "1.230000e+04"), ("{:f}", 4667987610839285760, "12300.000000"),
    ("{:.0}", 4667987610839285760, "1e+04"), ("{:.0g}", 4667987610839285760, "1e+04"),
    ("{:.0e}", 4667987610839285760, "1e+04"), ("{:.0f}", 4667987610839285760, "12300"),
    ("{:.4}", 4667987610839285760, "1.23e+04"), ("{:.4g}", 4667987610839285760, "1.23e+04"),
    ("{:.4e}", 4667987610839285760, "1.2300e+04"), ("{:.4f}", 4667987610839285760, "12300.0000"),
    ("{:}", 4817745636534010688, "123456789098765"), ("{:g}", 4817745636534010688, "1.23457e+14"),
    ("{:e}", 4817745636534010688, "1.234568e+14"), ("{:f}", 4817745636534010688, "123456789098765.000000"),
    ("{:.0}", 4817745636534010688, "1e+14"), ("{:.0g}", 4817745636534010688, "1e+14"),
    ("{:.0e}", 4817745636534010688, "1e+14"), ("{:.0f}", 4817745636534010688, "123456789098765"),
    ("{:.4}", 4817745636534010688, "1.235e+14"), ("{:.4g}", 4817745636534010688, "1.235e+14"),
    ("{:.4e}", 4817745636534010688, "1.2346e+14"), ("{:.4f}", 4817745636534010688, "123456789098765.0000"),
    ("{:}", 4832797072105122324, "1234567890987653"), ("{:g}", 4832797072105122324, "1.23457e+15"),
    ("{:e}", 4832797072105122324, "1.234568e+15"), ("{:f}", 4832797072105122324, "1234567890987653.000000"),
    ("{:.0}", 4832797072105122324, "1e+15"), ("{:.0g}", 4832797072105122324, "1e+15"),
    ("{:.0e}", 4832797072105122324, "1e+15"), ("{:.0f}", 4832797072105122324, "1234567890987653"),
    ("{:.4}", 4832797072105122324, "1.235e+15"), ("{:.4g}", 4832797072105122324, "1.235e+15"),
    ("{:.4e}", 4832797072105122324, "1.2346e+15"), ("{:.4f}", 4832797072105122324, "1234567890987653.0000"),
    ("{:}", 4950912855330343670, "1e+23"), ("{:g}", 4950912855330343670, "1e+23"),
    ("{:e}", 4950912855330343670, "1.000000e+23"), ("{:f}", 4950912855330343670, "99999999999999991611392.000000"),
    ("{:.0}", 4950912855330343670, "1e+23"), ("{:.0g}", 4950912855330343670, "1e+23"),
    ("{:.0e}", 4950912855330343670, "1e+23"), ("{:.0f}", 4950912855330343670, "99999999999999991611392"),
    ("{:.4}", 4950912855330343670, "1e+23"), ("{:.4g}", 4950912855330343670, "1e+23"),
    ("{:.4e}", 4950912855330343670, "1.0000e+23"), ("{:.4f}", 4950912855330343670, "99999999999999991611392.0000"),
    ("{:}", 4608083138725491507, "1.2"), ("{:g}", 4608083138725491507, "1.2"),
    ("{:e}", 4608083138725491507, "1.200000e+00"), ("{:f}", 4608083138725491507, "1.200000"),
    ("{:.0}", 4608083138725491507, "1"), ("{:.0g}", 4608083138725491507, "1"),
    ("{:.0e}", 4608083138725491507, "1e+00"), ("{:.0f}", 4608083138725491507, "1"),
    ("{:.4}", 4608083138725491507, "1.2"), ("{:.4g}", 4608083138725491507, "1.2"),
    ("{:.4e}", 4608083138725491507, "1.2000e+00"), ("{:.4f}", 4608083138725491507, "1.2000"),
    ("{:}", 4623136420479977390, "12.34"), ("{:g}", 4623136420479977390, "12.34"),
    ("{:e}", 4623136420479977390, "1.234000e+01"), ("{:f}", 4623136420479977390, "12.340000"),
    ("{:.0}", 4623136420479977390, "1e+01"), ("{:.0g}", 4623136420479977390, "1e+01"),
    ("{:.0e}", 4623136420479977390, "1e+01"), ("{:.0f}", 4623136420479977390, "12"),
    ("{:.4}", 4623136420479977390, "12.34"), ("{:.4g}", 4623136420479977390, "12.34"),
    ("{:.4e}", 4623136420479977390, "1.2340e+01"), ("{:.4f}", 4623136420479977390, "12.3400"),
    ("{:}", 4638395178967462052, "123.56"), ("{:g}", 4638395178967462052, "123.56"),
    ("{:e}", 4638395178967462052, "1.235600e+02"), ("{:f}", 4638395178967462052, "123.560000"),
    ("{:.0}", 4638395178967462052, "1e+02"), ("{:.0g}", 4638395178967462052, "1e+02"),
    ("{:.0e}", 4638395178967462052, "1e+02"), ("{:.0f}", 4638395178967462052, "124"),
    ("{:.4}", 4638395178967462052, "123.6"), ("{:.4g}", 4638395178967462052, "123.6"),
    ("{:.4e}", 4638395178967462052, "1.2356e+02"), ("{:.4f}", 4638395178967462052, "123.5600"),
    ("{:}", 4817745636534010720, "123456789098765.5"), ("{:g}", 4817745636534010720, "1.23457e+14"),
    ("{:e}", 4817745636534010720, "1.234568e+14"), ("{:f}", 4817745636534010720, "123456789098765.500000"),
    ("{:.0}", 4817745636534010720, "1e+14"), ("{:.0g}", 4817745636534010720, "1e+14"),
    ("{:.0e}", 4817745636534010720, "1e+14"), ("{:.0f}", 4817745636534010720, "123456789098766"),
    ("{:.4}", 4817745636534010720, "1.235e+14"), ("{:.4g}", 4817745636534010720, "1.235e+14"),
    ("{:.4e}", 4817745636534010720, "1.2346e+14"), ("{:.4f}", 4817745636534010720, "123456789098765.5000"),
    ("{:}", 4832797072105122328, "1234567890987654"), ("{:g}", 4832797072105122328, "1.23457e+15"),
    ("{:e}", 4832797072105122328, "1.234568e+15"), ("{:f}", 4832797072105122328, "1234567890987654.000000"),
    ("{:.0}", 4832797072105122328, "1e+15"), ("{:.0g}", 4832797072105122328, "1e+15"),
    ("{:.0e}", 4832797072105122328, "1e+15"), ("{:.0f}", 4832797072105122328, "1234567890987654"),
    ("{:.4}", 4832797072105122328, "1.235e+15"), ("{:.4g}", 4832797072105122328, "1.235e+15"),
    ("{:.4e}", 4832797072105122328, "1.2346e+15"), ("{:.4f}", 4832797072105122328, "1234567890987654.0000"),
    ("{:}", 4607182328728024861, "0.99999"), ("{:g}", 4607182328728024861, "0.99999"),
    ("{:e}", 4607182328728024861, "9.999900e-01"), ("{:f}", 4607182328728024861, "0.999990"),
    ("{:.0}", 4607182328728024861, "1"), ("{:.0g}", 4607182328728024861, "1"),
    ("{:.0e}", 4607182328728024861, "1e+00"), ("{:.0f}", 4607182328728024861, "1"),
    ("{:.4}", 4607182328728024861, "1"), ("{:.4g}", 4607182328728024861, "1"),
    ("{:.4e}", 4607182328728024861, "9.9999e-01"), ("{:.4f}", 4607182328728024861, "1.0000"),
    ("{:}", 4591870180066957722, "0.1"), ("{:g}", 4591870180066957722, "0.1"),
    ("{:e}", 4591870180066957722, "1.000000e-01"), ("{:f}", 4591870180066957722, "0.100000"),
    ("{:.0}", 4591870180066957722, "0.1"), ("{:.0g}", 4591870180066957722, "0.1"),
    ("{:.0e}", 4591870180066957722, "1e-01"), ("{:.0f}", 4591870180066957722, "0"),
    ("{:.4}", 4591870180066957722, "0.1"), ("{:.4g}", 4591870180066957722, "0.1"),
    ("{:.4e}", 4591870180066957722, "1.0000e-01"), ("{:.4f}", 4591870180066957722, "0.1000"),
    ("{:}", 4578071150808694522, "0.012"), ("{:g}", 4578071150808694522, "0.012"),
    ("{:e}", 4578071150808694522, "1.200000e-02"), ("{:f}", 4578071150808694522, "0.012000"),
    ("{:.0}", 4578071150808694522, "0.01"), ("{:.0g}", 4578071150808694522, "0.01"),
    ("{:.0e}", 4578071150808694522, "1e-02"), ("{:.0f}", 4578071150808694522, "0"),
    ("{:.4}", 4578071150808694522, "0.012"), ("{:.4g}", 4578071150808694522, "0.012"),
    ("{:.4e}", 4578071150808694522, "1.2000e-02"), ("{:.4f}", 4578071150808694522, "0.0120"),
    ("{:}", 4563315196701607639, "0.00123"), ("{:g}", 4563315196701607639, "0.00123"),
    ("{:e}", 4563315196701607639, "1.230000e-03"), ("{:f}", 4563315196701607639, "0.001230"),
    ("{:.0}", 4563315196701607639, "0.001"), ("{:.0g}", 4563315196701607639, "0.001"),
    ("{:.0e}", 4563315196701607639, "1e-03"), ("{:.0f}", 4563315196701607639, "0"),
    ("{:.4}", 4563315196701607639, "0.00123"), ("{:.4g}", 4563315196701607639, "0.00123"),
    ("{:.4e}", 4563315196701607639, "1.2300e-03"), ("{:.4f}", 4563315196701607639, "0.0012"),
    ("{:}", 4518415337399166656, "1.23e-06"), ("{:g}", 4518415337399166656, "1.23e-06"),
    ("{:e}", 4518415337399166656, "1.230000e-06"), ("{:f}", 4518415337399166656, "0.000001"),
    ("{:.0}", 4518415337399166656, "1e-06"), ("{:.0g}", 4518415337399166656, "1e-06"),
    ("{:.0e}", 4518415337399166656, "1e-06"), ("{:.0f}", 4518415337399166656, "0"),
    ("{:.4}", 4518415337399166656, "1.23e-06"), ("{:.4g}", 4518415337399166656, "1.23e-06"),
    ("{:.4e}", 4518415337399166656, "1.2300e-06"), ("{:.4f}", 4518415337399166656, "0.0000"),
    ("{:}", 4503599627370496, "2.2250738585072014e-308"), ("{:g}", 4503599627370496, "2.22507e-308"),
    ("{:e}", 4503599627370496, "2.225074e-308"), ("{:f}", 4503599627370496, "0.000000"),
    ("{:.0}", 4503599627370496, "2e-308"), ("{:.0g}", 4503599627370496, "2e-308"),
    ("{:.0e}", 4503599627370496, "2e-308"), ("{:.0f}", 4503599627370496, "0"),
    ("{:.4}", 4503599627370496, "2.225e-308"), ("{:.4g}", 4503599627370496, "2.225e-308"),
    ("{:.4e}", 4503599627370496, "2.2251e-308"), ("{:.4f}", 4503599627370496, "0.0000"),
    ("{:}", 9218868437227405311, "1.7976931348623157e+308"), ("{:g}", 9218868437227405311, "1.79769e+308"),
    ("{:e}", 9218868437227405311, "1.797693e+308"), ("{:.0}", 9218868437227405311, "2e+308"),
    ("{:.0g}", 9218868437227405311, "2e+308"), ("{:.0e}", 9218868437227405311, "2e+308"),
    ("{:.4}", 9218868437227405311, "1.798e+308"), ("{:.4g}", 9218868437227405311, "1.798e+308"),
    ("{:.4e}", 9218868437227405311, "1.7977e+308"), ("{:}", 9218868437227405311, "1.7976931348623157e+308"),
    ("{:g}", 9218868437227405311, "1.79769e+308"), ("{:e}", 9218868437227405311, "1.797693e+308"),
    ("{:.0}", 9218868437227405311, "2e+308"), ("{:.0g}", 9218868437227405311, "2e+308"),
    ("{:.0e}", 9218868437227405311, "2e+308"), ("{:.4}", 9218868437227405311, "1.798e+308"),
    ("{:.4g}", 9218868437227405311, "1.798e+308"), ("{:.4e}", 9218868437227405311, "1.7977e+308"),
    ("{:}", 4614256656552045848, "3.141592653589793"), ("{:g}", 4614256656552045848, "3.14159"),
    ("{:e}", 4614256656552045848, "3.141593e+00"), ("{:f}", 4614256656552045848, "3.141593"),
    ("{:.0}", 4614256656552045848, "3"), ("{:.0g}", 4614256656552045848, "3"),
    ("{:.0e}", 4614256656552045848, "3e+00"), ("{:.0f}", 4614256656552045848, "3"),
    ("{:.4}", 4614256656552045848, "3.142"), ("{:.4g}", 4614256656552045848, "3.142"),
    ("{:.4e}", 4614256656552045848, "3.1416e+00"), ("{:.4f}", 4614256656552045848, "3.1416")]

/-- test_format_emio_vs_fmt.cpp:65-76, "format double for shortest results in different rounding". -/
def rounding : List (String × Nat × String) := [
    ("{:}", 4832797072105122325, "1234567890987653.3"), ("{:}", 4832797072105122329, "1234567890987654.3")]

example : doubles.all passes = true ∧ rounding.all passes = true := by decide +kernel

end Emio.Conformance.VsFmt
