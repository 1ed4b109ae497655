import Verif.Test.Props
/-! # The theorems of C72 applied to concrete tests: their hypotheses are met -/
namespace QCoro.Test

example := C72_no_expectations demo (by simp [NoExpect, demo]) 0 11 [.fail] none .returned (.act _ _ _ _ _ _ _ _ _ rfl (.fails _ _ _ _ rfl))
example := C72_expect_fail (fun u => (u, some ())) .continue (.verify fun u : Nat => (u + 10, some (u == 5))) demo 0 0 10 21 false [.xfail, .fail] none .returned rfl rfl
example := C72_expect_fail (fun u => (u, some ())) .abort (.verify fun u : Nat => (u + 10, some (u == 0))) demo 0 0 10 10 true [.xpass] none .returned rfl rfl
/-- An expected exception leaves the expectation pending. -/
example : Runs [.expectFail (fun u : Nat => (u, some ())) .continue true, .throws fun u => (u + 1, .expected)] none 0 [] (some .continue) 1 .reached :=
  C72_throws_keeps_expectation (fun u => (u, some ())) .continue (fun u => (u + 1, .expected)) 0 0 1 rfl rfl

end QCoro.Test
