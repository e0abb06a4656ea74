import Mathlib.Data.Real.Basic
import Mathlib.Tactic.Ring
import Mathlib.Tactic.Linarith
import Mathlib.Tactic.Positivity

/-!
# Polynomial inequalities used for the error bounds of the exponentials, logarithms and arc sine

Generated, in the same way as `TrigCert.lean`: every theorem states that one polynomial is not negative
on one interval.  Nothing here models code (the models are in `Expo.lean`).
-/

namespace Verif.ExpoCert

private theorem lnD_up_0 (x : ℝ) (h0 : 0 ≤ x) (h1 : x ≤ (1 / 2)) :
    0 ≤ (1129 / 500000000) + (-39743 / 1000000000) * x + (139143 / 125000000) * x ^ 2 + (-285707 / 25000000) * x ^ 3 + (5877401 / 100000000) * x ^ 4 + (-169791587 / 1000000000) * x ^ 5 + (144065589 / 500000000) * x ^ 6 + (-284964901 / 1000000000) * x ^ 7 + (151981281 / 1000000000) * x ^ 8 + (-16886809 / 500000000) * x ^ 9 := by
  have key : ∀ u v : ℝ, 0 ≤ u → 0 ≤ v → 0 ≤ (2258 / 1953125) * (u ^ 0 * v ^ 9) + (901 / 3906250) * (u ^ 1 * v ^ 8) + (200602 / 1953125) * (u ^ 2 * v ^ 7) + (152737 / 1953125) * (u ^ 3 * v ^ 6) + (188601 / 3125000) * (u ^ 4 * v ^ 5) + (8524129 / 62500000) * (u ^ 5 * v ^ 4) + (8257137 / 62500000) * (u ^ 6 * v ^ 3) + (3035171 / 50000000) * (u ^ 7 * v ^ 2) + (7250181 / 500000000) * (u ^ 8 * v ^ 1) + (384023 / 250000000) * (u ^ 9 * v ^ 0) := by
    intro u v hu hv; positivity
  have := key (x - 0) ((1 / 2) - x) (by linarith) (by linarith)
  calc (0 : ℝ) ≤ _ := this
    _ = _ := by ring

private theorem lnD_up_1 (x : ℝ) (h0 : (1 / 2) ≤ x) (h1 : x ≤ 1) :
    0 ≤ (1129 / 500000000) + (-39743 / 1000000000) * x + (139143 / 125000000) * x ^ 2 + (-285707 / 25000000) * x ^ 3 + (5877401 / 100000000) * x ^ 4 + (-169791587 / 1000000000) * x ^ 5 + (144065589 / 500000000) * x ^ 6 + (-284964901 / 1000000000) * x ^ 7 + (151981281 / 1000000000) * x ^ 8 + (-16886809 / 500000000) * x ^ 9 := by
  have key : ∀ u v : ℝ, 0 ≤ u → 0 ≤ v → 0 ≤ (384023 / 250000000) * (u ^ 0 * v ^ 9) + (6574647 / 500000000) * (u ^ 1 * v ^ 8) + (12473719 / 250000000) * (u ^ 2 * v ^ 7) + (15743371 / 125000000) * (u ^ 3 * v ^ 6) + (489653 / 1953125) * (u ^ 4 * v ^ 5) + (2552593 / 7812500) * (u ^ 5 * v ^ 4) + (2810183 / 15625000) * (u ^ 6 * v ^ 3) + (61599 / 7812500) * (u ^ 7 * v ^ 2) + (107099 / 3906250) * (u ^ 8 * v ^ 1) + (3742 / 1953125) * (u ^ 9 * v ^ 0) := by
    intro u v hu hv; positivity
  have := key (x - (1 / 2)) (1 - x) (by linarith) (by linarith)
  calc (0 : ℝ) ≤ _ := this
    _ = _ := by ring

theorem lnD_up (x : ℝ) (h0 : 0 ≤ x) (h1 : x ≤ 1) :
    0 ≤ (1129 / 500000000) + (-39743 / 1000000000) * x + (139143 / 125000000) * x ^ 2 + (-285707 / 25000000) * x ^ 3 + (5877401 / 100000000) * x ^ 4 + (-169791587 / 1000000000) * x ^ 5 + (144065589 / 500000000) * x ^ 6 + (-284964901 / 1000000000) * x ^ 7 + (151981281 / 1000000000) * x ^ 8 + (-16886809 / 500000000) * x ^ 9 := by
  rcases le_total x ((1 / 2) : ℝ) with h | h
  · exact lnD_up_0 x (by linarith) h
  exact lnD_up_1 x (by linarith) (by linarith)

private theorem lnD_lo_0 (x : ℝ) (h0 : 0 ≤ x) (h1 : x ≤ (1 / 4)) :
    0 ≤ (871 / 500000000) + (43743 / 1000000000) * x + (-139143 / 125000000) * x ^ 2 + (285707 / 25000000) * x ^ 3 + (-5877401 / 100000000) * x ^ 4 + (169791587 / 1000000000) * x ^ 5 + (-144065589 / 500000000) * x ^ 6 + (284964901 / 1000000000) * x ^ 7 + (-151981281 / 1000000000) * x ^ 8 + (16886809 / 500000000) * x ^ 9 := by
  have key : ∀ u v : ℝ, 0 ≤ u → 0 ≤ v → 0 ≤ (891904 / 1953125) * (u ^ 0 * v ^ 9) + (2725248 / 390625) * (u ^ 1 * v ^ 8) + (41280768 / 1953125) * (u ^ 2 * v ^ 7) + (73776832 / 1953125) * (u ^ 3 * v ^ 6) + (21781276 / 390625) * (u ^ 4 * v ^ 5) + (50458079 / 781250) * (u ^ 5 * v ^ 4) + (393439427 / 7812500) * (u ^ 6 * v ^ 3) + (1503833933 / 62500000) * (u ^ 7 * v ^ 2) + (1593598311 / 250000000) * (u ^ 8 * v ^ 1) + (72283123 / 100000000) * (u ^ 9 * v ^ 0) := by
    intro u v hu hv; positivity
  have := key (x - 0) ((1 / 4) - x) (by linarith) (by linarith)
  calc (0 : ℝ) ≤ _ := this
    _ = _ := by ring

private theorem lnD_lo_1 (x : ℝ) (h0 : (1 / 4) ≤ x) (h1 : x ≤ (1 / 2)) :
    0 ≤ (871 / 500000000) + (43743 / 1000000000) * x + (-139143 / 125000000) * x ^ 2 + (285707 / 25000000) * x ^ 3 + (-5877401 / 100000000) * x ^ 4 + (169791587 / 1000000000) * x ^ 5 + (-144065589 / 500000000) * x ^ 6 + (284964901 / 1000000000) * x ^ 7 + (-151981281 / 1000000000) * x ^ 8 + (16886809 / 500000000) * x ^ 9 := by
  have key : ∀ u v : ℝ, 0 ≤ u → 0 ≤ v → 0 ≤ (72283123 / 100000000) * (u ^ 0 * v ^ 9) + (103696389 / 15625000) * (u ^ 1 * v ^ 8) + (1634921759 / 62500000) * (u ^ 2 * v ^ 7) + (1822159299 / 31250000) * (u ^ 3 * v ^ 6) + (647779481 / 7812500) * (u ^ 4 * v ^ 5) + (25249891 / 312500) * (u ^ 5 * v ^ 4) + (214404001 / 3906250) * (u ^ 6 * v ^ 3) + (48494593 / 1953125) * (u ^ 7 * v ^ 2) + (2594681 / 390625) * (u ^ 8 * v ^ 1) + (1535908 / 1953125) * (u ^ 9 * v ^ 0) := by
    intro u v hu hv; positivity
  have := key (x - (1 / 4)) ((1 / 2) - x) (by linarith) (by linarith)
  calc (0 : ℝ) ≤ _ := this
    _ = _ := by ring

private theorem lnD_lo_2 (x : ℝ) (h0 : (1 / 2) ≤ x) (h1 : x ≤ 1) :
    0 ≤ (871 / 500000000) + (43743 / 1000000000) * x + (-139143 / 125000000) * x ^ 2 + (285707 / 25000000) * x ^ 3 + (-5877401 / 100000000) * x ^ 4 + (169791587 / 1000000000) * x ^ 5 + (-144065589 / 500000000) * x ^ 6 + (284964901 / 1000000000) * x ^ 7 + (-151981281 / 1000000000) * x ^ 8 + (16886809 / 500000000) * x ^ 9 := by
  have key : ∀ u v : ℝ, 0 ≤ u → 0 ≤ v → 0 ≤ (383977 / 250000000) * (u ^ 0 * v ^ 9) + (7761353 / 500000000) * (u ^ 1 * v ^ 8) + (17222281 / 250000000) * (u ^ 2 * v ^ 7) + (20096629 / 125000000) * (u ^ 3 * v ^ 6) + (378347 / 1953125) * (u ^ 4 * v ^ 5) + (1031407 / 7812500) * (u ^ 5 * v ^ 4) + (2117817 / 15625000) * (u ^ 6 * v ^ 3) + (1026401 / 7812500) * (u ^ 7 * v ^ 2) + (32901 / 3906250) * (u ^ 8 * v ^ 1) + (4258 / 1953125) * (u ^ 9 * v ^ 0) := by
    intro u v hu hv; positivity
  have := key (x - (1 / 2)) (1 - x) (by linarith) (by linarith)
  calc (0 : ℝ) ≤ _ := this
    _ = _ := by ring

theorem lnD_lo (x : ℝ) (h0 : 0 ≤ x) (h1 : x ≤ 1) :
    0 ≤ (871 / 500000000) + (43743 / 1000000000) * x + (-139143 / 125000000) * x ^ 2 + (285707 / 25000000) * x ^ 3 + (-5877401 / 100000000) * x ^ 4 + (169791587 / 1000000000) * x ^ 5 + (-144065589 / 500000000) * x ^ 6 + (284964901 / 1000000000) * x ^ 7 + (-151981281 / 1000000000) * x ^ 8 + (16886809 / 500000000) * x ^ 9 := by
  rcases le_total x ((1 / 4) : ℝ) with h | h
  · exact lnD_lo_0 x (by linarith) h
  rcases le_total x ((1 / 2) : ℝ) with h | h
  · exact lnD_lo_1 x (by linarith) h
  exact lnD_lo_2 x (by linarith) (by linarith)

private theorem lnUp_lo_0 (x : ℝ) (h0 : 0 ≤ x) (h1 : x ≤ 1) :
    0 ≤ (2172182554656383711042041 / 25000000000000000000000000000) + (48192918681435494335236051 / 25000000000000000000000000000) * x + (-260226166045969679 / 20000000000000000000) * x ^ 2 + (16855986923463919 / 500000000000000000) * x ^ 3 + (-17546994246463521 / 400000000000000000) * x ^ 4 + (87075241457642471 / 2500000000000000000) * x ^ 5 + (-37259503957473021 / 2500000000000000000) * x ^ 6 + (-519600560660567 / 87500000000000000) * x ^ 7 + (1937304095763194269 / 140000000000000000000) * x ^ 8 + (-94636265252403497 / 11250000000000000000) * x ^ 9 + (16886809 / 9000000000) * x ^ 10 := by
  have key : ∀ u v : ℝ, 0 ≤ u → 0 ≤ v → 0 ≤ (2172182554656383711042041 / 25000000000000000000000000000) * (u ^ 0 * v ^ 10) + (69914744227999331445656461 / 25000000000000000000000000000) * (u ^ 1 * v ^ 9) + (12887610970937163579001019 / 1562500000000000000000000000) * (u ^ 2 * v ^ 8) + (59036166200985750348385689 / 6250000000000000000000000000) * (u ^ 3 * v ^ 7) + (99677988458942462989328447 / 12500000000000000000000000000) * (u ^ 4 * v ^ 6) + (196640988103061368211168379 / 12500000000000000000000000000) * (u ^ 5 * v ^ 5) + (196878401156516651389642759 / 6250000000000000000000000000) * (u ^ 6 * v ^ 4) + (1270423778720909774098528107 / 43750000000000000000000000000) * (u ^ 7 * v ^ 3) + (2420500590170533890207727767 / 175000000000000000000000000000) * (u ^ 8 * v ^ 2) + (650434749275973397647903821 / 225000000000000000000000000000) * (u ^ 9 * v ^ 1) + (18095817952575037867959983 / 131250000000000000000000000000) * (u ^ 10 * v ^ 0) := by
    intro u v hu hv; positivity
  have := key (x - 0) (1 - x) (by linarith) (by linarith)
  calc (0 : ℝ) ≤ _ := this
    _ = _ := by ring

theorem lnUp_lo (x : ℝ) (h0 : 0 ≤ x) (h1 : x ≤ 1) :
    0 ≤ (2172182554656383711042041 / 25000000000000000000000000000) + (48192918681435494335236051 / 25000000000000000000000000000) * x + (-260226166045969679 / 20000000000000000000) * x ^ 2 + (16855986923463919 / 500000000000000000) * x ^ 3 + (-17546994246463521 / 400000000000000000) * x ^ 4 + (87075241457642471 / 2500000000000000000) * x ^ 5 + (-37259503957473021 / 2500000000000000000) * x ^ 6 + (-519600560660567 / 87500000000000000) * x ^ 7 + (1937304095763194269 / 140000000000000000000) * x ^ 8 + (-94636265252403497 / 11250000000000000000) * x ^ 9 + (16886809 / 9000000000) * x ^ 10 := by
  exact lnUp_lo_0 x (by linarith) (by linarith)

private theorem lnLo_lo_0 (x : ℝ) (h0 : 0 ≤ x) (h1 : x ≤ (1 / 8)) :
    0 ≤ (2172280208292817059257959 / 25000000000000000000000000000) + (-45643616755310494335236051 / 25000000000000000000000000000) * x + (260226166045969679 / 20000000000000000000) * x ^ 2 + (-16855986923463919 / 500000000000000000) * x ^ 3 + (17546994246463521 / 400000000000000000) * x ^ 4 + (-87075241457642471 / 2500000000000000000) * x ^ 5 + (37259503957473021 / 2500000000000000000) * x ^ 6 + (519600560660567 / 87500000000000000) * x ^ 7 + (-1937304095763194269 / 140000000000000000000) * x ^ 8 + (94636265252403497 / 11250000000000000000) * x ^ 9 + (-16886809 / 9000000000) * x ^ 10 := by
  have key : ∀ u v : ℝ, 0 ≤ u → 0 ≤ v → 0 ≤ (17378241666342536474063672 / 186264514923095703125) * (u ^ 0 * v ^ 10) + (128138799908114870405400669 / 186264514923095703125) * (u ^ 1 * v ^ 9) + (411888662632302454659490781 / 186264514923095703125) * (u ^ 2 * v ^ 8) + (754332764543432492850392804 / 186264514923095703125) * (u ^ 3 * v ^ 7) + (1727634415040753356031226297 / 372529029846191406250) * (u ^ 4 * v ^ 6) + (2565183290304983008446039797 / 745058059692382812500) * (u ^ 5 * v ^ 5) + (10071385088746055511866196333 / 5960464477539062500000) * (u ^ 6 * v ^ 4) + (24227343420281443310043639619 / 41723251342773437500000) * (u ^ 7 * v ^ 3) + (3540420469505361461110735626827 / 21362304687500000000000000) * (u ^ 8 * v ^ 2) + (292225776886256199599163411379 / 6866455078125000000000000) * (u ^ 9 * v ^ 1) + (1204969428882102177877878915857 / 192260742187500000000000000) * (u ^ 10 * v ^ 0) := by
    intro u v hu hv; positivity
  have := key (x - 0) ((1 / 8) - x) (by linarith) (by linarith)
  calc (0 : ℝ) ≤ _ := this
    _ = _ := by ring

private theorem lnLo_lo_1 (x : ℝ) (h0 : (1 / 8) ≤ x) (h1 : x ≤ (1 / 4)) :
    0 ≤ (2172280208292817059257959 / 25000000000000000000000000000) + (-45643616755310494335236051 / 25000000000000000000000000000) * x + (260226166045969679 / 20000000000000000000) * x ^ 2 + (-16855986923463919 / 500000000000000000) * x ^ 3 + (17546994246463521 / 400000000000000000) * x ^ 4 + (-87075241457642471 / 2500000000000000000) * x ^ 5 + (37259503957473021 / 2500000000000000000) * x ^ 6 + (519600560660567 / 87500000000000000) * x ^ 7 + (-1937304095763194269 / 140000000000000000000) * x ^ 8 + (94636265252403497 / 11250000000000000000) * x ^ 9 + (-16886809 / 9000000000) * x ^ 10 := by
  have key : ∀ u v : ℝ, 0 ≤ u → 0 ≤ v → 0 ≤ (1204969428882102177877878915857 / 192260742187500000000000000) * (u ^ 0 * v ^ 10) + (82901389712639947754067722909 / 1001358032226562500000000) * (u ^ 1 * v ^ 9) + (11275165541517057841115162906743 / 21362304687500000000000000) * (u ^ 2 * v ^ 8) + (7847859759365588616795869238361 / 4005432128906250000000000) * (u ^ 3 * v ^ 7) + (873838407844114399389540347649 / 190734863281250000000000) * (u ^ 4 * v ^ 6) + (336054720455062881312624596771 / 47683715820312500000000) * (u ^ 5 * v ^ 5) + (2077374187959856485449205954049 / 286102294921875000000000) * (u ^ 6 * v ^ 4) + (415225343263335925186459286853 / 83446502685546875000000) * (u ^ 7 * v ^ 3) + (91025625269573948018056482541 / 41723251342773437500000) * (u ^ 8 * v ^ 2) + (104174878310894437457025261883 / 187754631042480468750000) * (u ^ 9 * v ^ 1) + (3122167733569304566099554641 / 50067901611328125000000) * (u ^ 10 * v ^ 0) := by
    intro u v hu hv; positivity
  have := key (x - (1 / 8)) ((1 / 4) - x) (by linarith) (by linarith)
  calc (0 : ℝ) ≤ _ := this
    _ = _ := by ring

private theorem lnLo_lo_2 (x : ℝ) (h0 : (1 / 4) ≤ x) (h1 : x ≤ (1 / 2)) :
    0 ≤ (2172280208292817059257959 / 25000000000000000000000000000) + (-45643616755310494335236051 / 25000000000000000000000000000) * x + (260226166045969679 / 20000000000000000000) * x ^ 2 + (-16855986923463919 / 500000000000000000) * x ^ 3 + (17546994246463521 / 400000000000000000) * x ^ 4 + (-87075241457642471 / 2500000000000000000) * x ^ 5 + (37259503957473021 / 2500000000000000000) * x ^ 6 + (519600560660567 / 87500000000000000) * x ^ 7 + (-1937304095763194269 / 140000000000000000000) * x ^ 8 + (94636265252403497 / 11250000000000000000) * x ^ 9 + (-16886809 / 9000000000) * x ^ 10 := by
  have key : ∀ u v : ℝ, 0 ≤ u → 0 ≤ v → 0 ≤ (3122167733569304566099554641 / 51269531250000000000000000) * (u ^ 0 * v ^ 10) + (285788226809515777544298746693 / 384521484375000000000000000) * (u ^ 1 * v ^ 9) + (335471142854405667293044957811 / 85449218750000000000000000) * (u ^ 2 * v ^ 8) + (63278632086759830455593124509 / 5340576171875000000000000) * (u ^ 3 * v ^ 7) + (51994187257854622519619174459 / 2288818359375000000000000) * (u ^ 4 * v ^ 6) + (1383679989618229450166553947 / 47683715820312500000000) * (u ^ 5 * v ^ 5) + (9569754107373690234883474071 / 381469726562500000000000) * (u ^ 6 * v ^ 4) + (14546673691596657340836445243 / 1001358032226562500000000) * (u ^ 7 * v ^ 3) + (3606022291251945942445562423 / 667572021484375000000000) * (u ^ 8 * v ^ 2) + (2335346644460800559119063711 / 2002716064453125000000000) * (u ^ 9 * v ^ 1) + (10427945557843109745146203 / 93877315521240234375000) * (u ^ 10 * v ^ 0) := by
    intro u v hu hv; positivity
  have := key (x - (1 / 4)) ((1 / 2) - x) (by linarith) (by linarith)
  calc (0 : ℝ) ≤ _ := this
    _ = _ := by ring

private theorem lnLo_lo_3 (x : ℝ) (h0 : (1 / 2) ≤ x) (h1 : x ≤ (3 / 4)) :
    0 ≤ (2172280208292817059257959 / 25000000000000000000000000000) + (-45643616755310494335236051 / 25000000000000000000000000000) * x + (260226166045969679 / 20000000000000000000) * x ^ 2 + (-16855986923463919 / 500000000000000000) * x ^ 3 + (17546994246463521 / 400000000000000000) * x ^ 4 + (-87075241457642471 / 2500000000000000000) * x ^ 5 + (37259503957473021 / 2500000000000000000) * x ^ 6 + (519600560660567 / 87500000000000000) * x ^ 7 + (-1937304095763194269 / 140000000000000000000) * x ^ 8 + (94636265252403497 / 11250000000000000000) * x ^ 9 + (-16886809 / 9000000000) * x ^ 10 := by
  have key : ∀ u v : ℝ, 0 ≤ u → 0 ≤ v → 0 ≤ (10427945557843109745146203 / 93877315521240234375000) * (u ^ 0 * v ^ 10) + (6341730380656778796429948707 / 6008148193359375000000000) * (u ^ 1 * v ^ 9) + (420244676932331865931188571 / 95367431640625000000000) * (u ^ 2 * v ^ 8) + (3545021803195282937193861479 / 333786010742187500000000) * (u ^ 3 * v ^ 7) + (6224767251084844886761097799 / 381469726562500000000000) * (u ^ 4 * v ^ 6) + (1586391591849794750949326167 / 95367431640625000000000) * (u ^ 5 * v ^ 5) + (8648523133301972240740304337 / 762939453125000000000000) * (u ^ 6 * v ^ 4) + (27060891633848806812641575451 / 5340576171875000000000000) * (u ^ 7 * v ^ 3) + (120745992050940828044859335699 / 85449218750000000000000000) * (u ^ 8 * v ^ 2) + (1355059571622108522445623759 / 6103515625000000000000000) * (u ^ 9 * v ^ 1) + (1311460943404931621240629343 / 85449218750000000000000000) * (u ^ 10 * v ^ 0) := by
    intro u v hu hv; positivity
  have := key (x - (1 / 2)) ((3 / 4) - x) (by linarith) (by linarith)
  calc (0 : ℝ) ≤ _ := this
    _ = _ := by ring

private theorem lnLo_lo_4 (x : ℝ) (h0 : (3 / 4) ≤ x) (h1 : x ≤ 1) :
    0 ≤ (2172280208292817059257959 / 25000000000000000000000000000) + (-45643616755310494335236051 / 25000000000000000000000000000) * x + (260226166045969679 / 20000000000000000000) * x ^ 2 + (-16855986923463919 / 500000000000000000) * x ^ 3 + (17546994246463521 / 400000000000000000) * x ^ 4 + (-87075241457642471 / 2500000000000000000) * x ^ 5 + (37259503957473021 / 2500000000000000000) * x ^ 6 + (519600560660567 / 87500000000000000) * x ^ 7 + (-1937304095763194269 / 140000000000000000000) * x ^ 8 + (94636265252403497 / 11250000000000000000) * x ^ 9 + (-16886809 / 9000000000) * x ^ 10 := by
  have key : ∀ u v : ℝ, 0 ≤ u → 0 ≤ v → 0 ≤ (1311460943404931621240629343 / 85449218750000000000000000) * (u ^ 0 * v ^ 10) + (3629192432694556555286927117 / 42724609375000000000000000) * (u ^ 1 * v ^ 9) + (15333949815057172211875430171 / 85449218750000000000000000) * (u ^ 2 * v ^ 8) + (817625498501122339253463597 / 2670288085937500000000000) * (u ^ 3 * v ^ 7) + (197889050609004853025743417 / 190734863281250000000000) * (u ^ 4 * v ^ 6) + (28682366734833354775695069 / 9536743164062500000000) * (u ^ 5 * v ^ 5) + (121848106837798478787682751 / 23841857910156250000000) * (u ^ 6 * v ^ 4) + (860512572919486268017023933 / 166893005371093750000000) * (u ^ 7 * v ^ 3) + (2062694482048494048199975293 / 667572021484375000000000) * (u ^ 8 * v ^ 2) + (6144143287262283525155079373 / 6008148193359375000000000) * (u ^ 9 * v ^ 1) + (18096446665064516176115017 / 125169754028320312500000) * (u ^ 10 * v ^ 0) := by
    intro u v hu hv; positivity
  have := key (x - (3 / 4)) (1 - x) (by linarith) (by linarith)
  calc (0 : ℝ) ≤ _ := this
    _ = _ := by ring

theorem lnLo_lo (x : ℝ) (h0 : 0 ≤ x) (h1 : x ≤ 1) :
    0 ≤ (2172280208292817059257959 / 25000000000000000000000000000) + (-45643616755310494335236051 / 25000000000000000000000000000) * x + (260226166045969679 / 20000000000000000000) * x ^ 2 + (-16855986923463919 / 500000000000000000) * x ^ 3 + (17546994246463521 / 400000000000000000) * x ^ 4 + (-87075241457642471 / 2500000000000000000) * x ^ 5 + (37259503957473021 / 2500000000000000000) * x ^ 6 + (519600560660567 / 87500000000000000) * x ^ 7 + (-1937304095763194269 / 140000000000000000000) * x ^ 8 + (94636265252403497 / 11250000000000000000) * x ^ 9 + (-16886809 / 9000000000) * x ^ 10 := by
  rcases le_total x ((1 / 8) : ℝ) with h | h
  · exact lnLo_lo_0 x (by linarith) h
  rcases le_total x ((1 / 4) : ℝ) with h | h
  · exact lnLo_lo_1 x (by linarith) h
  rcases le_total x ((1 / 2) : ℝ) with h | h
  · exact lnLo_lo_2 x (by linarith) h
  rcases le_total x ((3 / 4) : ℝ) with h | h
  · exact lnLo_lo_3 x (by linarith) h
  exact lnLo_lo_4 x (by linarith) (by linarith)

private theorem lnUp_hi_0 (x : ℝ) (h0 : 0 ≤ x) (h1 : x ≤ 1) :
    0 ≤ (33940352441468981487309 / 390625000000000000000000000) + (753014114842491139846799 / 390625000000000000000000000) * x + (-65056541825223481 / 5000000000000000000) * x ^ 2 + (16855986923463919 / 500000000000000000) * x ^ 3 + (-17546994246463521 / 400000000000000000) * x ^ 4 + (87075241457642471 / 2500000000000000000) * x ^ 5 + (-37259503957473021 / 2500000000000000000) * x ^ 6 + (-519600560660567 / 87500000000000000) * x ^ 7 + (1937304095763194269 / 140000000000000000000) * x ^ 8 + (-94636265252403497 / 11250000000000000000) * x ^ 9 + (16886809 / 9000000000) * x ^ 10 := by
  have key : ∀ u v : ℝ, 0 ≤ u → 0 ≤ v → 0 ≤ (33940352441468981487309 / 390625000000000000000000000) * (u ^ 0 * v ^ 10) + (1092417639257180954719889 / 390625000000000000000000000) * (u ^ 1 * v ^ 9) + (402737570419117496553137 / 48828125000000000000000000) * (u ^ 2 * v ^ 8) + (922437892624367476677961 / 97656250000000000000000000) * (u ^ 3 * v ^ 7) + (1557458167841325988326753 / 195312500000000000000000000) * (u ^ 4 * v ^ 6) + (3072499664007850704311771 / 195312500000000000000000000) * (u ^ 5 * v ^ 5) + (769054261117845669349629 / 24414062500000000000000000) * (u ^ 6 * v ^ 4) + (19850333931177051091689343 / 683593750000000000000000000) * (u ^ 7 * v ^ 3) + (37820256557426565530989433 / 2734375000000000000000000000) * (u ^ 8 * v ^ 2) + (10163021790996518356761029 / 3515625000000000000000000000) * (u ^ 9 * v ^ 1) + (565491538595716283773759 / 4101562500000000000000000000) * (u ^ 10 * v ^ 0) := by
    intro u v hu hv; positivity
  have := key (x - 0) (1 - x) (by linarith) (by linarith)
  calc (0 : ℝ) ≤ _ := this
    _ = _ := by ring

theorem lnUp_hi (x : ℝ) (h0 : 0 ≤ x) (h1 : x ≤ 1) :
    0 ≤ (33940352441468981487309 / 390625000000000000000000000) + (753014114842491139846799 / 390625000000000000000000000) * x + (-65056541825223481 / 5000000000000000000) * x ^ 2 + (16855986923463919 / 500000000000000000) * x ^ 3 + (-17546994246463521 / 400000000000000000) * x ^ 4 + (87075241457642471 / 2500000000000000000) * x ^ 5 + (-37259503957473021 / 2500000000000000000) * x ^ 6 + (-519600560660567 / 87500000000000000) * x ^ 7 + (1937304095763194269 / 140000000000000000000) * x ^ 8 + (-94636265252403497 / 11250000000000000000) * x ^ 9 + (16886809 / 9000000000) * x ^ 10 := by
  exact lnUp_hi_0 x (by linarith) (by linarith)

private theorem lnLo_hi_0 (x : ℝ) (h0 : 0 ≤ x) (h1 : x ≤ (1 / 8)) :
    0 ≤ (33941878279539353212691 / 390625000000000000000000000) + (-713181272217491139846799 / 390625000000000000000000000) * x + (65056541825223481 / 5000000000000000000) * x ^ 2 + (-16855986923463919 / 500000000000000000) * x ^ 3 + (17546994246463521 / 400000000000000000) * x ^ 4 + (-87075241457642471 / 2500000000000000000) * x ^ 5 + (37259503957473021 / 2500000000000000000) * x ^ 6 + (519600560660567 / 87500000000000000) * x ^ 7 + (-1937304095763194269 / 140000000000000000000) * x ^ 8 + (94636265252403497 / 11250000000000000000) * x ^ 9 + (-16886809 / 9000000000) * x ^ 10 := by
  have key : ∀ u v : ℝ, 0 ≤ u → 0 ≤ v → 0 ≤ (17378241679124148844897792 / 186264514923095703125) * (u ^ 0 * v ^ 10) + (128138815369322055498782784 / 186264514923095703125) * (u ^ 1 * v ^ 9) + (411888801404076477093644416 / 186264514923095703125) * (u ^ 2 * v ^ 8) + (754333319647959493461960144 / 186264514923095703125) * (u ^ 3 * v ^ 7) + (1727637007399316008218430417 / 372529029846191406250) * (u ^ 4 * v ^ 6) + (2565191075140291791307453917 / 745058059692382812500) * (u ^ 5 * v ^ 5) + (10071447438094735898356452013 / 5960464477539062500000) * (u ^ 6 * v ^ 4) + (24227634736588915058994641859 / 41723251342773437500000) * (u ^ 7 * v ^ 3) + (3540484473155886546283404124747 / 21362304687500000000000000) * (u ^ 8 * v ^ 2) + (292230926676131775666788023219 / 6866455078125000000000000) * (u ^ 9 * v ^ 1) + (1204985471472948880902043042577 / 192260742187500000000000000) * (u ^ 10 * v ^ 0) := by
    intro u v hu hv; positivity
  have := key (x - 0) ((1 / 8) - x) (by linarith) (by linarith)
  calc (0 : ℝ) ≤ _ := this
    _ = _ := by ring

private theorem lnLo_hi_1 (x : ℝ) (h0 : (1 / 8) ≤ x) (h1 : x ≤ (1 / 4)) :
    0 ≤ (33941878279539353212691 / 390625000000000000000000000) + (-713181272217491139846799 / 390625000000000000000000000) * x + (65056541825223481 / 5000000000000000000) * x ^ 2 + (-16855986923463919 / 500000000000000000) * x ^ 3 + (17546994246463521 / 400000000000000000) * x ^ 4 + (-87075241457642471 / 2500000000000000000) * x ^ 5 + (37259503957473021 / 2500000000000000000) * x ^ 6 + (519600560660567 / 87500000000000000) * x ^ 7 + (-1937304095763194269 / 140000000000000000000) * x ^ 8 + (94636265252403497 / 11250000000000000000) * x ^ 9 + (-16886809 / 9000000000) * x ^ 10 := by
  have key : ∀ u v : ℝ, 0 ≤ u → 0 ≤ v → 0 ≤ (1204985471472948880902043042577 / 192260742187500000000000000) * (u ^ 0 * v ^ 10) + (82902309804829624475889563549 / 1001358032226562500000000) * (u ^ 1 * v ^ 9) + (11275262008751484726984135676023 / 21362304687500000000000000) * (u ^ 2 * v ^ 8) + (7847912073419032255217393656921 / 4005432128906250000000000) * (u ^ 3 * v ^ 7) + (873843108321930655148587218689 / 190734863281250000000000) * (u ^ 4 * v ^ 6) + (336056233171519574687514608931 / 47683715820312500000000) * (u ^ 5 * v ^ 5) + (2077382265813214189959535769089 / 286102294921875000000000) * (u ^ 6 * v ^ 4) + (415226775518327107944160881733 / 83446502685546875000000) * (u ^ 7 * v ^ 3) + (91025909976200561861246773901 / 41723251342773437500000) * (u ^ 8 * v ^ 2) + (104175179220259166951336795563 / 187754631042480468750000) * (u ^ 9 * v ^ 1) + (3122176191063309731977762001 / 50067901611328125000000) * (u ^ 10 * v ^ 0) := by
    intro u v hu hv; positivity
  have := key (x - (1 / 8)) ((1 / 4) - x) (by linarith) (by linarith)
  calc (0 : ℝ) ≤ _ := this
    _ = _ := by ring

private theorem lnLo_hi_2 (x : ℝ) (h0 : (1 / 4) ≤ x) (h1 : x ≤ (1 / 2)) :
    0 ≤ (33941878279539353212691 / 390625000000000000000000000) + (-713181272217491139846799 / 390625000000000000000000000) * x + (65056541825223481 / 5000000000000000000) * x ^ 2 + (-16855986923463919 / 500000000000000000) * x ^ 3 + (17546994246463521 / 400000000000000000) * x ^ 4 + (-87075241457642471 / 2500000000000000000) * x ^ 5 + (37259503957473021 / 2500000000000000000) * x ^ 6 + (519600560660567 / 87500000000000000) * x ^ 7 + (-1937304095763194269 / 140000000000000000000) * x ^ 8 + (94636265252403497 / 11250000000000000000) * x ^ 9 + (-16886809 / 9000000000) * x ^ 10 := by
  have key : ∀ u v : ℝ, 0 ≤ u → 0 ≤ v → 0 ≤ (3122176191063309731977762001 / 51269531250000000000000000) * (u ^ 0 * v ^ 10) + (285788926108208021889649267973 / 384521484375000000000000000) * (u ^ 1 * v ^ 9) + (335471907491118557142880448371 / 85449218750000000000000000) * (u ^ 2 * v ^ 8) + (63278770474445217781313201149 / 5340576171875000000000000) * (u ^ 3 * v ^ 7) + (51994299303715940851969853099 / 2288818359375000000000000) * (u ^ 4 * v ^ 6) + (691841499120126534400918221 / 23841857910156250000000) * (u ^ 5 * v ^ 5) + (9569775555344176857128794231 / 381469726562500000000000) * (u ^ 6 * v ^ 4) + (14546707960268468164969580773 / 1001358032226562500000000) * (u ^ 7 * v ^ 3) + (450753923168008207138454391 / 83446502685546875000000) * (u ^ 8 * v ^ 2) + (583838265075439057984492849 / 500679016113281250000000) * (u ^ 9 * v ^ 1) + (333695273468568920817893531 / 3004074096679687500000000) * (u ^ 10 * v ^ 0) := by
    intro u v hu hv; positivity
  have := key (x - (1 / 4)) ((1 / 2) - x) (by linarith) (by linarith)
  calc (0 : ℝ) ≤ _ := this
    _ = _ := by ring

private theorem lnLo_hi_3 (x : ℝ) (h0 : (1 / 2) ≤ x) (h1 : x ≤ (3 / 4)) :
    0 ≤ (33941878279539353212691 / 390625000000000000000000000) + (-713181272217491139846799 / 390625000000000000000000000) * x + (65056541825223481 / 5000000000000000000) * x ^ 2 + (-16855986923463919 / 500000000000000000) * x ^ 3 + (17546994246463521 / 400000000000000000) * x ^ 4 + (-87075241457642471 / 2500000000000000000) * x ^ 5 + (37259503957473021 / 2500000000000000000) * x ^ 6 + (519600560660567 / 87500000000000000) * x ^ 7 + (-1937304095763194269 / 140000000000000000000) * x ^ 8 + (94636265252403497 / 11250000000000000000) * x ^ 9 + (-16886809 / 9000000000) * x ^ 10 := by
  have key : ∀ u v : ℝ, 0 ≤ u → 0 ≤ v → 0 ≤ (333695273468568920817893531 / 3004074096679687500000000) * (u ^ 0 * v ^ 10) + (1585437939459372034225456763 / 1502037048339843750000000) * (u ^ 1 * v ^ 9) + (52530785040647948182063357 / 11920928955078125000000) * (u ^ 2 * v ^ 8) + (3545037485401571189268550569 / 333786010742187500000000) * (u ^ 3 * v ^ 7) + (6224800057230490559753912839 / 381469726562500000000000) * (u ^ 4 * v ^ 6) + (1586401868409526632250201737 / 95367431640625000000000) * (u ^ 5 * v ^ 5) + (8648594556447888837099681857 / 762939453125000000000000) * (u ^ 6 * v ^ 4) + (27061189035986420848826580411 / 5340576171875000000000000) * (u ^ 7 * v ^ 3) + (120747847072468986766454334739 / 85449218750000000000000000) * (u ^ 8 * v ^ 2) + (1355090142758766011748480399 / 6103515625000000000000000) * (u ^ 9 * v ^ 1) + (1311505327695364366364294623 / 85449218750000000000000000) * (u ^ 10 * v ^ 0) := by
    intro u v hu hv; positivity
  have := key (x - (1 / 2)) ((3 / 4) - x) (by linarith) (by linarith)
  calc (0 : ℝ) ≤ _ := this
    _ = _ := by ring

private theorem lnLo_hi_4 (x : ℝ) (h0 : (3 / 4) ≤ x) (h1 : x ≤ 1) :
    0 ≤ (33941878279539353212691 / 390625000000000000000000000) + (-713181272217491139846799 / 390625000000000000000000000) * x + (65056541825223481 / 5000000000000000000) * x ^ 2 + (-16855986923463919 / 500000000000000000) * x ^ 3 + (17546994246463521 / 400000000000000000) * x ^ 4 + (-87075241457642471 / 2500000000000000000) * x ^ 5 + (37259503957473021 / 2500000000000000000) * x ^ 6 + (519600560660567 / 87500000000000000) * x ^ 7 + (-1937304095763194269 / 140000000000000000000) * x ^ 8 + (94636265252403497 / 11250000000000000000) * x ^ 9 + (-16886809 / 9000000000) * x ^ 10 := by
  have key : ∀ u v : ℝ, 0 ≤ u → 0 ≤ v → 0 ≤ (1311505327695364366364294623 / 85449218750000000000000000) * (u ^ 0 * v ^ 10) + (3629422277642281581403583437 / 42724609375000000000000000) * (u ^ 1 * v ^ 9) + (15336090082425537751410306331 / 85449218750000000000000000) * (u ^ 2 * v ^ 8) + (817809855299955209588450717 / 2670288085937500000000000) * (u ^ 3 * v ^ 7) + (197912849017154977489335237 / 190734863281250000000000) * (u ^ 4 * v ^ 6) + (7170960021857966514703421 / 2384185791015625000000) * (u ^ 5 * v ^ 5) + (15231408932933080154038917 / 2980232238769531250000) * (u ^ 6 * v ^ 4) + (53782850863537031094149843 / 10430812835693359375000) * (u ^ 7 * v ^ 3) + (32229915933296289811528507 / 10430812835693359375000) * (u ^ 8 * v ^ 2) + (96002886262361443867396177 / 93877315521240234375000) * (u ^ 9 * v ^ 1) + (565516731537371230576241 / 3911554813385009765625) * (u ^ 10 * v ^ 0) := by
    intro u v hu hv; positivity
  have := key (x - (3 / 4)) (1 - x) (by linarith) (by linarith)
  calc (0 : ℝ) ≤ _ := this
    _ = _ := by ring

theorem lnLo_hi (x : ℝ) (h0 : 0 ≤ x) (h1 : x ≤ 1) :
    0 ≤ (33941878279539353212691 / 390625000000000000000000000) + (-713181272217491139846799 / 390625000000000000000000000) * x + (65056541825223481 / 5000000000000000000) * x ^ 2 + (-16855986923463919 / 500000000000000000) * x ^ 3 + (17546994246463521 / 400000000000000000) * x ^ 4 + (-87075241457642471 / 2500000000000000000) * x ^ 5 + (37259503957473021 / 2500000000000000000) * x ^ 6 + (519600560660567 / 87500000000000000) * x ^ 7 + (-1937304095763194269 / 140000000000000000000) * x ^ 8 + (94636265252403497 / 11250000000000000000) * x ^ 9 + (-16886809 / 9000000000) * x ^ 10 := by
  rcases le_total x ((1 / 8) : ℝ) with h | h
  · exact lnLo_hi_0 x (by linarith) h
  rcases le_total x ((1 / 4) : ℝ) with h | h
  · exact lnLo_hi_1 x (by linarith) h
  rcases le_total x ((1 / 2) : ℝ) with h | h
  · exact lnLo_hi_2 x (by linarith) h
  rcases le_total x ((3 / 4) : ℝ) with h | h
  · exact lnLo_hi_3 x (by linarith) h
  exact lnLo_hi_4 x (by linarith) (by linarith)

private theorem e2Up_0 (x : ℝ) (h0 : 0 ≤ x) (h1 : x ≤ 1) :
    0 ≤ (1337 / 625000) + (122312163439 / 100000000000000) * x + (-16085277524534098989483 / 2000000000000000000000000) * x ^ 2 + (-28508521128821702619204069349283 / 20000000000000000000000000000000000) * x ^ 3 + (7704506128817284037680535747002588327232751 / 800000000000000000000000000000000000000000000) * x ^ 4 + (53403566987937690046224623052281982758230750574620053 / 40000000000000000000000000000000000000000000000000000000) * x ^ 5 + (123388439585503913225453247097065452764536204591834981602621853 / 800000000000000000000000000000000000000000000000000000000000000000) * x ^ 6 + (855263489803089382068387964148100789882811100500943299007597124941110959 / 56000000000000000000000000000000000000000000000000000000000000000000000000000) * x ^ 7 + (5928234763705492074095724991157135541074732817497687651972957354313178647802789077 / 4480000000000000000000000000000000000000000000000000000000000000000000000000000000000000) * x ^ 8 := by
  have key : ∀ u v : ℝ, 0 ≤ u → 0 ≤ v → 0 ≤ (1337 / 625000) * (u ^ 0 * v ^ 8) + (1833672163439 / 100000000000000) * (u ^ 1 * v ^ 7) + (120833625356925901010517 / 2000000000000000000000000) * (u ^ 2 * v ^ 6) + (1915989913842932358011815930650717 / 20000000000000000000000000000000000) * (u ^ 3 * v ^ 5) + (59533742518768349576941721877145988327232751 / 800000000000000000000000000000000000000000000) * (u ^ 4 * v ^ 4) + (1094201648507320849405050385467139648204780950574620053 / 40000000000000000000000000000000000000000000000000000000) * (u ^ 5 * v ^ 3) + (10106089090784194557502517372536314381654887239069038161602621853 / 800000000000000000000000000000000000000000000000000000000000000000) * (u ^ 6 * v ^ 2) + (736065703205598999076324297648084323386657312156762063323374656544941110959 / 56000000000000000000000000000000000000000000000000000000000000000000000000000) * (u ^ 7 * v ^ 1) + (22538028933907343329746631376697256435638352030929294984547263104149602055367802789077 / 4480000000000000000000000000000000000000000000000000000000000000000000000000000000000000) * (u ^ 8 * v ^ 0) := by
    intro u v hu hv; positivity
  have := key (x - 0) (1 - x) (by linarith) (by linarith)
  calc (0 : ℝ) ≤ _ := this
    _ = _ := by ring

theorem e2Up (x : ℝ) (h0 : 0 ≤ x) (h1 : x ≤ 1) :
    0 ≤ (1337 / 625000) + (122312163439 / 100000000000000) * x + (-16085277524534098989483 / 2000000000000000000000000) * x ^ 2 + (-28508521128821702619204069349283 / 20000000000000000000000000000000000) * x ^ 3 + (7704506128817284037680535747002588327232751 / 800000000000000000000000000000000000000000000) * x ^ 4 + (53403566987937690046224623052281982758230750574620053 / 40000000000000000000000000000000000000000000000000000000) * x ^ 5 + (123388439585503913225453247097065452764536204591834981602621853 / 800000000000000000000000000000000000000000000000000000000000000000) * x ^ 6 + (855263489803089382068387964148100789882811100500943299007597124941110959 / 56000000000000000000000000000000000000000000000000000000000000000000000000000) * x ^ 7 + (5928234763705492074095724991157135541074732817497687651972957354313178647802789077 / 4480000000000000000000000000000000000000000000000000000000000000000000000000000000000000) * x ^ 8 := by
  exact e2Up_0 x (by linarith) (by linarith)

private theorem e2Lo_0 (x : ℝ) (h0 : 0 ≤ x) (h1 : x ≤ 1) :
    0 ≤ (36 / 78125) + (452391043 / 781250000000) * x + (4232044596566991117 / 488281250000000000000) * x ^ 2 + (119761399753582460994124633 / 76293945312500000000000000000) * x ^ 3 + (-458031919150126483538921335198783649 / 47683715820312500000000000000000000000) * x ^ 4 + (-49606802105519328754440770400938858420857303 / 37252902984619140625000000000000000000000000000) * x ^ 5 + (-5372627348116285444695155544373571154310559295865841 / 34924596548080444335937500000000000000000000000000000000) * x ^ 6 + (-581878359349341163524768965781254710568525928687600122526727 / 38198777474462985992431640625000000000000000000000000000000000000) * x ^ 7 + (-63019897554925804661653968687907558143327142606486229507364905109569 / 47748471843078732490539550781250000000000000000000000000000000000000000000) * x ^ 8 + (-6825322550703380414749522853305406090321764254657108402664337002118323039543 / 22382096176443155854940414428710937500000000000000000000000000000000000000000000000) * x ^ 9 := by
  have key : ∀ u v : ℝ, 0 ≤ u → 0 ≤ v → 0 ≤ (36 / 78125) * (u ^ 0 * v ^ 9) + (3692391043 / 781250000000) * (u ^ 1 * v ^ 8) + (14593999811566991117 / 488281250000000000000) * (u ^ 2 * v ^ 7) + (8938691935451853995212874633 / 76293945312500000000000000000) * (u ^ 3 * v ^ 6) + (12984884172983113746849202288551216351 / 47683715820312500000000000000000000000) * (u ^ 4 * v ^ 5) + (14012094333678792300979079158021781262672892697 / 37252902984619140625000000000000000000000000000) * (u ^ 5 * v ^ 4) + (10629150735247950218399202475846756718068255804454134159 / 34924596548080444335937500000000000000000000000000000000) * (u ^ 6 * v ^ 3) + (5112432315659726743911128171042846733245476895815346359096223273 / 38198777474462985992431640625000000000000000000000000000000000000) * (u ^ 7 * v ^ 2) + (398234780080115327695657617147340196404409990831996799995871105864963477 / 15916157281026244163513183593750000000000000000000000000000000000000000000) * (u ^ 8 * v ^ 1) + (3779972116325182713625188430597237444236018696959936036197363637165271208210457 / 22382096176443155854940414428710937500000000000000000000000000000000000000000000000) * (u ^ 9 * v ^ 0) := by
    intro u v hu hv; positivity
  have := key (x - 0) (1 - x) (by linarith) (by linarith)
  calc (0 : ℝ) ≤ _ := this
    _ = _ := by ring

theorem e2Lo (x : ℝ) (h0 : 0 ≤ x) (h1 : x ≤ 1) :
    0 ≤ (36 / 78125) + (452391043 / 781250000000) * x + (4232044596566991117 / 488281250000000000000) * x ^ 2 + (119761399753582460994124633 / 76293945312500000000000000000) * x ^ 3 + (-458031919150126483538921335198783649 / 47683715820312500000000000000000000000) * x ^ 4 + (-49606802105519328754440770400938858420857303 / 37252902984619140625000000000000000000000000000) * x ^ 5 + (-5372627348116285444695155544373571154310559295865841 / 34924596548080444335937500000000000000000000000000000000) * x ^ 6 + (-581878359349341163524768965781254710568525928687600122526727 / 38198777474462985992431640625000000000000000000000000000000000000) * x ^ 7 + (-63019897554925804661653968687907558143327142606486229507364905109569 / 47748471843078732490539550781250000000000000000000000000000000000000000000) * x ^ 8 + (-6825322550703380414749522853305406090321764254657108402664337002118323039543 / 22382096176443155854940414428710937500000000000000000000000000000000000000000000000) * x ^ 9 := by
  exact e2Lo_0 x (by linarith) (by linarith)

private theorem e2nUp_0 (x : ℝ) (h0 : 0 ≤ x) (h1 : x ≤ 1) :
    0 ≤ (803 / 156250) + (-2580127873 / 781250000000) * x + (-3575175241145718613 / 488281250000000000000) * x ^ 2 + (288142458344471096654849411 / 228881835937500000000000000000) * x ^ 3 + (1381800710130585843851422940643251483 / 143051147460937500000000000000000000000) * x ^ 4 + (-149654885414758371487187941464893047497948301 / 111758708953857421875000000000000000000000000000) * x ^ 5 + (16208259674716688110866160147835318444800524784734347 / 104773789644241333007812500000000000000000000000000000000) * x ^ 6 + (-1755423359250655844181211992592712844169331902015490546871709 / 114596332423388957977294921875000000000000000000000000000000000000) * x ^ 7 + (190119805089852765460195496405123342274987832140865486014558648848123 / 143245415529236197471618652343750000000000000000000000000000000000000000000) * x ^ 8 + (-20590782330043271104034081710948090527215824094178834391095805500833378878381 / 201438865587988402694463729858398437500000000000000000000000000000000000000000000000) * x ^ 9 := by
  have key : ∀ u v : ℝ, 0 ≤ u → 0 ≤ v → 0 ≤ (803 / 156250) * (u ^ 0 * v ^ 9) + (33554872127 / 781250000000) * (u ^ 1 * v ^ 8) + (73861685393854281387 / 488281250000000000000) * (u ^ 2 * v ^ 7) + (66198627865131956897748599411 / 228881835937500000000000000000) * (u ^ 3 * v ^ 6) + (46641464142088341458357889481893251483 / 143051147460937500000000000000000000000) * (u ^ 4 * v ^ 5) + (25250006270911899199852106340832964307970801699 / 111758708953857421875000000000000000000000000000) * (u ^ 5 * v ^ 4) + (11216260116459338359085045994351152525581400646034734347 / 104773789644241333007812500000000000000000000000000000000) * (u ^ 6 * v ^ 3) + (5348336241329556241200164415125558512470118233504925335546878291 / 114596332423388957977294921875000000000000000000000000000000000000) * (u ^ 7 * v ^ 2) + (2794420383659500035596398385548679025100668063200035984236022786148848123 / 143245415529236197471618652343750000000000000000000000000000000000000000000) * (u ^ 8 * v ^ 1) + (853011653696972803868344909050261458241484162055993793794263091942879339589871619 / 201438865587988402694463729858398437500000000000000000000000000000000000000000000000) * (u ^ 9 * v ^ 0) := by
    intro u v hu hv; positivity
  have := key (x - 0) (1 - x) (by linarith) (by linarith)
  calc (0 : ℝ) ≤ _ := this
    _ = _ := by ring

theorem e2nUp (x : ℝ) (h0 : 0 ≤ x) (h1 : x ≤ 1) :
    0 ≤ (803 / 156250) + (-2580127873 / 781250000000) * x + (-3575175241145718613 / 488281250000000000000) * x ^ 2 + (288142458344471096654849411 / 228881835937500000000000000000) * x ^ 3 + (1381800710130585843851422940643251483 / 143051147460937500000000000000000000000) * x ^ 4 + (-149654885414758371487187941464893047497948301 / 111758708953857421875000000000000000000000000000) * x ^ 5 + (16208259674716688110866160147835318444800524784734347 / 104773789644241333007812500000000000000000000000000000000) * x ^ 6 + (-1755423359250655844181211992592712844169331902015490546871709 / 114596332423388957977294921875000000000000000000000000000000000000) * x ^ 7 + (190119805089852765460195496405123342274987832140865486014558648848123 / 143245415529236197471618652343750000000000000000000000000000000000000000000) * x ^ 8 + (-20590782330043271104034081710948090527215824094178834391095805500833378878381 / 201438865587988402694463729858398437500000000000000000000000000000000000000000000000) * x ^ 9 := by
  exact e2nUp_0 x (by linarith) (by linarith)

private theorem e2nLo_0 (x : ℝ) (h0 : 0 ≤ x) (h1 : x ≤ 1) :
    0 ≤ (2163 / 625000) + (-265850257529 / 100000000000000) * x + (18775814400458006954787 / 2000000000000000000000000) * x ^ 2 + (-34724981292287795164227995456987 / 20000000000000000000000000000000000) * x ^ 3 + (-7661416910479746046458113895226682510162439 / 800000000000000000000000000000000000000000000) * x ^ 4 + (53104895286017734923625144485326246112424206878207517 / 40000000000000000000000000000000000000000000000000000000) * x ^ 5 + (-122698361425433183260345349180613274061368919316978019756047717 / 800000000000000000000000000000000000000000000000000000000000000000) * x ^ 6 + (850480232494692996829615395887610063403889955826215163109821689108023751 / 56000000000000000000000000000000000000000000000000000000000000000000000000000) * x ^ 7 + (-5895079750545848854666047511929651311543105429324325971306774830410098851110793053 / 4480000000000000000000000000000000000000000000000000000000000000000000000000000000000000) * x ^ 8 := by
  have key : ∀ u v : ℝ, 0 ≤ u → 0 ≤ v → 0 ≤ (2163 / 625000) * (u ^ 0 * v ^ 8) + (2502789742471 / 100000000000000) * (u ^ 1 * v ^ 7) + (175361578346398006954787 / 2000000000000000000000000) * (u ^ 2 * v ^ 6) + (3851348801113392622122992004543013 / 20000000000000000000000000000000000) * (u ^ 3 * v ^ 5) + (217415201125690736649418287013375917489837561 / 800000000000000000000000000000000000000000000) * (u ^ 4 * v ^ 4) + (9366936042121515404262242456300249744079936406878207517 / 40000000000000000000000000000000000000000000000000000000) * (u ^ 5 * v ^ 3) + (88719064513818078296439281765784066431709449493375473000243952283 / 800000000000000000000000000000000000000000000000000000000000000000) * (u ^ 6 * v ^ 2) + (1238009006571115677116359046287682882521510990139920863797263141309108023751 / 56000000000000000000000000000000000000000000000000000000000000000000000000000) * (u ^ 7 * v ^ 1) + (41795285495468811121450945067096332385564987602991125777658820728318828746984172421 / 640000000000000000000000000000000000000000000000000000000000000000000000000000000000000) * (u ^ 8 * v ^ 0) := by
    intro u v hu hv; positivity
  have := key (x - 0) (1 - x) (by linarith) (by linarith)
  calc (0 : ℝ) ≤ _ := this
    _ = _ := by ring

theorem e2nLo (x : ℝ) (h0 : 0 ≤ x) (h1 : x ≤ 1) :
    0 ≤ (2163 / 625000) + (-265850257529 / 100000000000000) * x + (18775814400458006954787 / 2000000000000000000000000) * x ^ 2 + (-34724981292287795164227995456987 / 20000000000000000000000000000000000) * x ^ 3 + (-7661416910479746046458113895226682510162439 / 800000000000000000000000000000000000000000000) * x ^ 4 + (53104895286017734923625144485326246112424206878207517 / 40000000000000000000000000000000000000000000000000000000) * x ^ 5 + (-122698361425433183260345349180613274061368919316978019756047717 / 800000000000000000000000000000000000000000000000000000000000000000) * x ^ 6 + (850480232494692996829615395887610063403889955826215163109821689108023751 / 56000000000000000000000000000000000000000000000000000000000000000000000000000) * x ^ 7 + (-5895079750545848854666047511929651311543105429324325971306774830410098851110793053 / 4480000000000000000000000000000000000000000000000000000000000000000000000000000000000000) * x ^ 8 := by
  exact e2nLo_0 x (by linarith) (by linarith)

private theorem ceUp_0 (x : ℝ) (h0 : 0 ≤ x) (h1 : x ≤ (3467 / 10000)) :
    0 ≤ (1 / 100000000) + (1 / 100000000) * x + (-701 / 100000000000) * x ^ 2 + (4123 / 300000000000) * x ^ 3 + (40837 / 46875000000) * x ^ 4 + (-3554719 / 30000000000000) * x ^ 5 + (-837994313 / 90000000000000) * x ^ 6 + (-271069 / 787500000000) * x ^ 7 + (100000001 / 4032000000000) * x ^ 8 := by
  have key : ∀ u v : ℝ, 0 ≤ u → 0 ≤ v → 0 ≤ (1000000000000000000000000 / 20875204239995857385372262241) * (u ^ 0 * v ^ 8) + (8346700000000000000000000 / 20875204239995857385372262241) * (u ^ 1 * v ^ 7) + (30342639176110000000000000 / 20875204239995857385372262241) * (u ^ 2 * v ^ 6) + (188497225623005249000000000 / 62625612719987572156116786723) * (u ^ 3 * v ^ 5) + (247247014609810766521280000 / 62625612719987572156116786723) * (u ^ 4 * v ^ 4) + (2159925894487252390097787067 / 626256127199875721561167867230) * (u ^ 5 * v ^ 3) + (36312043353242147533533398808703 / 18787683815996271646835036016900000) * (u ^ 6 * v ^ 2) + (465006668472768413463264652192969 / 821961166949836884549032825739375000) * (u ^ 7 * v ^ 1) + (5640946136706040247484019135842847841 / 84168823495663296977820961355712000000000) * (u ^ 8 * v ^ 0) := by
    intro u v hu hv; positivity
  have := key (x - 0) ((3467 / 10000) - x) (by linarith) (by linarith)
  calc (0 : ℝ) ≤ _ := this
    _ = _ := by ring

theorem ceUp (x : ℝ) (h0 : 0 ≤ x) (h1 : x ≤ (3467 / 10000)) :
    0 ≤ (1 / 100000000) + (1 / 100000000) * x + (-701 / 100000000000) * x ^ 2 + (4123 / 300000000000) * x ^ 3 + (40837 / 46875000000) * x ^ 4 + (-3554719 / 30000000000000) * x ^ 5 + (-837994313 / 90000000000000) * x ^ 6 + (-271069 / 787500000000) * x ^ 7 + (100000001 / 4032000000000) * x ^ 8 := by
  exact ceUp_0 x (by linarith) (by linarith)

private theorem ceLo_0 (x : ℝ) (h0 : 0 ≤ x) (h1 : x ≤ (3467 / 10000)) :
    0 ≤ (1 / 100000000) + (1 / 100000000) * x + (1701 / 100000000000) * x ^ 2 + (-1041 / 100000000000) * x ^ 3 + (-217589 / 250000000000) * x ^ 4 + (1186573 / 10000000000000) * x ^ 5 + (93110757 / 10000000000000) * x ^ 6 + (240953 / 700000000000) * x ^ 7 + (-11111111 / 448000000000) * x ^ 8 + (-11111111 / 1344000000000) * x ^ 9 := by
  have key : ∀ u v : ℝ, 0 ≤ u → 0 ≤ v → 0 ≤ (10000000000000000000000000000 / 72374333100065637555085633189547) * (u ^ 0 * v ^ 9) + (93467000000000000000000000000 / 72374333100065637555085633189547) * (u ^ 1 * v ^ 8) + (389780617138900000000000000000 / 72374333100065637555085633189547) * (u ^ 2 * v ^ 7) + (950954497290759170000000000000 / 72374333100065637555085633189547) * (u ^ 3 * v ^ 6) + (1481910899306837275012400000000 / 72374333100065637555085633189547) * (u ^ 4 * v ^ 5) + (1505463016326124418616649311000 / 72374333100065637555085633189547) * (u ^ 5 * v ^ 4) + (9898338980366349489875233511533 / 723743331000656375550856331895470) * (u ^ 6 * v ^ 3) + (2940275434060083438743517005528719 / 506620331700459462885599432326829000) * (u ^ 7 * v ^ 2) + (5048774166294037370370794824883223449 / 3242370122882940562467836366891705600000) * (u ^ 8 * v ^ 1) + (18411553163876023421328564566143514713283 / 97271103686488216874035091006751168000000000) * (u ^ 9 * v ^ 0) := by
    intro u v hu hv; positivity
  have := key (x - 0) ((3467 / 10000) - x) (by linarith) (by linarith)
  calc (0 : ℝ) ≤ _ := this
    _ = _ := by ring

theorem ceLo (x : ℝ) (h0 : 0 ≤ x) (h1 : x ≤ (3467 / 10000)) :
    0 ≤ (1 / 100000000) + (1 / 100000000) * x + (1701 / 100000000000) * x ^ 2 + (-1041 / 100000000000) * x ^ 3 + (-217589 / 250000000000) * x ^ 4 + (1186573 / 10000000000000) * x ^ 5 + (93110757 / 10000000000000) * x ^ 6 + (240953 / 700000000000) * x ^ 7 + (-11111111 / 448000000000) * x ^ 8 + (-11111111 / 1344000000000) * x ^ 9 := by
  exact ceLo_0 x (by linarith) (by linarith)

private theorem cenUp_0 (x : ℝ) (h0 : 0 ≤ x) (h1 : x ≤ (3467 / 10000)) :
    0 ≤ (1 / 100000000) + (-1 / 100000000) * x + (-701 / 100000000000) * x ^ 2 + (-4123 / 300000000000) * x ^ 3 + (40837 / 46875000000) * x ^ 4 + (3554719 / 30000000000000) * x ^ 5 + (-837994313 / 90000000000000) * x ^ 6 + (271069 / 787500000000) * x ^ 7 + (100000001 / 4032000000000) * x ^ 8 + (-100000001 / 36288000000000) * x ^ 9 := by
  have key : ∀ u v : ℝ, 0 ≤ u → 0 ≤ v → 0 ≤ (10000000000000000000000000000 / 72374333100065637555085633189547) * (u ^ 0 * v ^ 9) + (86533000000000000000000000000 / 72374333100065637555085633189547) * (u ^ 1 * v ^ 8) + (331421391761100000000000000000 / 72374333100065637555085633189547) * (u ^ 2 * v ^ 7) + (2209359022452847510000000000000 / 217122999300196912665256899568641) * (u ^ 3 * v ^ 6) + (3171911947965130275212800000000 / 217122999300196912665256899568641) * (u ^ 4 * v ^ 5) + (3128271171219092096817412933000 / 217122999300196912665256899568641) * (u ^ 5 * v ^ 4) + (64527966736513540217286114738703 / 6513689979005907379957706987059230) * (u ^ 6 * v ^ 3) + (5004831493274416546310987517343249 / 1139895746326033791492598722735365250) * (u ^ 7 * v ^ 2) + (30368996976046894999369855190078291041 / 29181331105946465062210527302025350400000) * (u ^ 8 * v ^ 1) + (265378782277074470907560951351209764500453 / 2626319799535181855598947457182281536000000000) * (u ^ 9 * v ^ 0) := by
    intro u v hu hv; positivity
  have := key (x - 0) ((3467 / 10000) - x) (by linarith) (by linarith)
  calc (0 : ℝ) ≤ _ := this
    _ = _ := by ring

theorem cenUp (x : ℝ) (h0 : 0 ≤ x) (h1 : x ≤ (3467 / 10000)) :
    0 ≤ (1 / 100000000) + (-1 / 100000000) * x + (-701 / 100000000000) * x ^ 2 + (-4123 / 300000000000) * x ^ 3 + (40837 / 46875000000) * x ^ 4 + (3554719 / 30000000000000) * x ^ 5 + (-837994313 / 90000000000000) * x ^ 6 + (271069 / 787500000000) * x ^ 7 + (100000001 / 4032000000000) * x ^ 8 + (-100000001 / 36288000000000) * x ^ 9 := by
  exact cenUp_0 x (by linarith) (by linarith)

private theorem cenLo_0 (x : ℝ) (h0 : 0 ≤ x) (h1 : x ≤ (3467 / 10000)) :
    0 ≤ (1 / 100000000) + (-1 / 100000000) * x + (1701 / 100000000000) * x ^ 2 + (1041 / 100000000000) * x ^ 3 + (-217589 / 250000000000) * x ^ 4 + (-1186573 / 10000000000000) * x ^ 5 + (93110757 / 10000000000000) * x ^ 6 + (-240953 / 700000000000) * x ^ 7 + (-11111111 / 448000000000) * x ^ 8 := by
  have key : ∀ u v : ℝ, 0 ≤ u → 0 ≤ v → 0 ≤ (1000000000000000000000000 / 20875204239995857385372262241) * (u ^ 0 * v ^ 8) + (7653300000000000000000000 / 20875204239995857385372262241) * (u ^ 1 * v ^ 7) + (25777561713890000000000000 / 20875204239995857385372262241) * (u ^ 2 * v ^ 6) + (49989452551494083000000000 / 20875204239995857385372262241) * (u ^ 3 * v ^ 5) + (59891824597038640501240000 / 20875204239995857385372262241) * (u ^ 4 * v ^ 4) + (432990692218311726494950689 / 208752042399958573853722622410) * (u ^ 5 * v ^ 3) + (1811370787453516740553781741533 / 2087520423999585738537226224100000) * (u ^ 6 * v ^ 2) + (351525174211288779691732275836781 / 1461264296799710016976058356870000000) * (u ^ 7 * v ^ 1) + (296924362855912167815374248406698649 / 9352091499518144108646773483968000000000) * (u ^ 8 * v ^ 0) := by
    intro u v hu hv; positivity
  have := key (x - 0) ((3467 / 10000) - x) (by linarith) (by linarith)
  calc (0 : ℝ) ≤ _ := this
    _ = _ := by ring

theorem cenLo (x : ℝ) (h0 : 0 ≤ x) (h1 : x ≤ (3467 / 10000)) :
    0 ≤ (1 / 100000000) + (-1 / 100000000) * x + (1701 / 100000000000) * x ^ 2 + (1041 / 100000000000) * x ^ 3 + (-217589 / 250000000000) * x ^ 4 + (-1186573 / 10000000000000) * x ^ 5 + (93110757 / 10000000000000) * x ^ 6 + (-240953 / 700000000000) * x ^ 7 + (-11111111 / 448000000000) * x ^ 8 := by
  exact cenLo_0 x (by linarith) (by linarith)

private theorem asD_up_0 (x : ℝ) (h0 : 0 ≤ x) (h1 : x ≤ (221 / 625)) :
    0 ≤ (65800108241 / 10000000000000000) + (-248100816249 / 1250000000000000) * x + (110617362415377 / 10000000000000000) * x ^ 2 + (-296825198749821 / 1250000000000000) * x ^ 3 + (25722010054414161 / 10000000000000000) * x ^ 4 + (-79535345514393507 / 5000000000000000) * x ^ 5 + (593684707636030407 / 10000000000000000) * x ^ 6 + (-10520597182099851 / 78125000000000) * x ^ 7 + (1762475028532922961 / 10000000000000000) * x ^ 8 + (-585781955868376863 / 5000000000000000) * x ^ 9 + (12921186799443089 / 125000000000000) * x ^ 10 + (-565692773837403281 / 1000000000000000) * x ^ 11 + (4244312169089776211 / 2000000000000000) * x ^ 12 + (-27159686849600644731 / 5000000000000000) * x ^ 13 + (12780926162003449929 / 1250000000000000) * x ^ 14 + (-34086878229211310627 / 2500000000000000) * x ^ 15 + (21869165434800135851 / 2000000000000000) * x ^ 16 + (-623819794173244419 / 1000000000000000) * x ^ 17 + (-3529133775513784219 / 312500000000000) * x ^ 18 + (79672291456580086259 / 5000000000000000) * x ^ 19 + (-115288032320931655401 / 10000000000000000) * x ^ 20 + (1147426925286592167 / 250000000000000) * x ^ 21 + (-20050428878614369 / 25000000000000) * x ^ 22 := by
  have key : ∀ u v : ℝ, 0 ≤ u → 0 ≤ v → 0 ≤ (13933714903256551515854655409754059292026795446872711181640625 / 247234999839169740288562109546160697247135604166180274176) * (u ^ 0 * v ^ 22) + (78961977538393322471020618902315391096635721623897552490234375 / 123617499919584870144281054773080348623567802083090137088) * (u ^ 1 * v ^ 21) + (378313022099058568850117600934623851571814157068729400634765625 / 30904374979896217536070263693270087155891950520772534272) * (u ^ 2 * v ^ 20) + (831016299089231146999222354931902145835920237004756927490234375 / 7726093744974054384017565923317521788972987630193133568) * (u ^ 3 * v ^ 19) + (61743866031363169514302365048497023281015572138130664825439453125 / 123617499919584870144281054773080348623567802083090137088) * (u ^ 4 * v ^ 18) + (180611572891479307926494151199658944051407161168754100799560546875 / 123617499919584870144281054773080348623567802083090137088) * (u ^ 5 * v ^ 17) + (11347146398674798997115334222588245438601006753742694854736328125 / 3635808821164260886596501610972951430104935355385004032) * (u ^ 6 * v ^ 16) + (5313509382190578037544780791715999157531769014894962310791015625 / 908952205291065221649125402743237857526233838846251008) * (u ^ 7 * v ^ 15) + (162073474525329108341346710850184278233427903614938259124755859375 / 14543235284657043546386006443891805720419741421540016128) * (u ^ 8 * v ^ 14) + (75450396616855943862671049675852375386355561204254627227783203125 / 3635808821164260886596501610972951430104935355385004032) * (u ^ 9 * v ^ 13) + (37015738596477467140165339148222501534231589175760746002197265625 / 1118710406512080272798923572607061978493826263195385856) * (u ^ 10 * v ^ 12) + (23457448184494876098257269992049784657015096209943294525146484375 / 559355203256040136399461786303530989246913131597692928) * (u ^ 11 * v ^ 11) + (23150552935022017596010260323188793049989908666312694549560546875 / 559355203256040136399461786303530989246913131597692928) * (u ^ 12 * v ^ 10) + (231375134355671607962606999168256716083139442486155223846435546875 / 7271617642328521773193003221945902860209870710770008064) * (u ^ 13 * v ^ 9) + (69775898450113706281308036525201440060507167545198176422119140625 / 3635808821164260886596501610972951430104935355385004032) * (u ^ 14 * v ^ 8) + (2085872541940597934936835565940245925408164766543211208251953125 / 227238051322766305412281350685809464381558459711562752) * (u ^ 15 * v ^ 7) + (51406819592673293458997369435289729020082525842123839101978515625 / 14543235284657043546386006443891805720419741421540016128) * (u ^ 16 * v ^ 6) + (137863370856261688129268541952782101940623634756164652118118503125 / 123617499919584870144281054773080348623567802083090137088) * (u ^ 17 * v ^ 5) + (17964142909375925270296202030945331508675257951254602470527187553 / 61808749959792435072140527386540174311783901041545068544) * (u ^ 18 * v ^ 4) + (1180569413770125617861660712369928823222922918816264532719510188151 / 19315234362435135960043914808293804472432469075482833920000) * (u ^ 19 * v ^ 3) + (232566948851848592403224612500091483202166893941661193453800946808081 / 24144042953043919950054893510367255590540586344353542400000000) * (u ^ 20 * v ^ 2) + (1488371191682329621120894629732449848724202807077291803611609744709957 / 1509002684565244996878430844397953474408786646522096400000000000) * (u ^ 21 * v ^ 1) + (2267297154953301867299452763934133168155406463342090313699360959776723 / 47156333892663906152450963887436046075274582703815512500000000000) * (u ^ 22 * v ^ 0) := by
    intro u v hu hv; positivity
  have := key (x - 0) ((221 / 625) - x) (by linarith) (by linarith)
  calc (0 : ℝ) ≤ _ := this
    _ = _ := by ring

private theorem asD_up_1 (x : ℝ) (h0 : (221 / 625) ≤ x) (h1 : x ≤ (663 / 1250)) :
    0 ≤ (65800108241 / 10000000000000000) + (-248100816249 / 1250000000000000) * x + (110617362415377 / 10000000000000000) * x ^ 2 + (-296825198749821 / 1250000000000000) * x ^ 3 + (25722010054414161 / 10000000000000000) * x ^ 4 + (-79535345514393507 / 5000000000000000) * x ^ 5 + (593684707636030407 / 10000000000000000) * x ^ 6 + (-10520597182099851 / 78125000000000) * x ^ 7 + (1762475028532922961 / 10000000000000000) * x ^ 8 + (-585781955868376863 / 5000000000000000) * x ^ 9 + (12921186799443089 / 125000000000000) * x ^ 10 + (-565692773837403281 / 1000000000000000) * x ^ 11 + (4244312169089776211 / 2000000000000000) * x ^ 12 + (-27159686849600644731 / 5000000000000000) * x ^ 13 + (12780926162003449929 / 1250000000000000) * x ^ 14 + (-34086878229211310627 / 2500000000000000) * x ^ 15 + (21869165434800135851 / 2000000000000000) * x ^ 16 + (-623819794173244419 / 1000000000000000) * x ^ 17 + (-3529133775513784219 / 312500000000000) * x ^ 18 + (79672291456580086259 / 5000000000000000) * x ^ 19 + (-115288032320931655401 / 10000000000000000) * x ^ 20 + (1147426925286592167 / 250000000000000) * x ^ 21 + (-20050428878614369 / 25000000000000) * x ^ 22 := by
  have key : ∀ u v : ℝ, 0 ≤ u → 0 ≤ v → 0 ≤ (4643424573344362224229279260537104728382272436924600962456291245622728704 / 23025553658527297926001447210662131872692667335847418212890625) * (u ^ 0 * v ^ 22) + (105605132786529405523697587446286060877440500592038494045486099274831423232 / 23025553658527297926001447210662131872692667335847418212890625) * (u ^ 1 * v ^ 21) + (1145708709631792600356530721393942218264856563499312405649955699052857587904 / 23025553658527297926001447210662131872692667335847418212890625) * (u ^ 2 * v ^ 20) + (1573835876733925610003390516971699818921518908379326380484673789151527519808 / 4605110731705459585200289442132426374538533467169483642578125) * (u ^ 3 * v ^ 19) + (7662864050264950112833092367117314734651298835927841403707252885171763279632 / 4605110731705459585200289442132426374538533467169483642578125) * (u ^ 4 * v ^ 18) + (140395130642659824799603857559752431858034623367236665717682747394335376789564 / 23025553658527297926001447210662131872692667335847418212890625) * (u ^ 5 * v ^ 17) + (23612136358094498252386974937213843585674033106409650209307440400226813772891 / 1354444332854546936823614541803654816040745137402789306640625) * (u ^ 6 * v ^ 16) + (53924360217375487253233168857411394565180835538657548083276798564049244390912 / 1354444332854546936823614541803654816040745137402789306640625) * (u ^ 7 * v ^ 15) + (19987118451076166125169648010807163111647436988692570248403223720040184925763 / 270888866570909387364722908360730963208149027480557861328125) * (u ^ 8 * v ^ 14) + (121544581264702093266315047069805111687693824195818324542661517710263029410913 / 1083555466283637549458891633442923852832596109922231445312500) * (u ^ 9 * v ^ 13) + (58731837264971846767628096291832477840800350470670109998338287104478630862591 / 416752102416783672868804474401124558781767734585473632812500) * (u ^ 10 * v ^ 12) + (245085079182954551545435256566000491465509744341202239481248327030686404762107 / 1667008409667134691475217897604498235127070938341894531250000) * (u ^ 11 * v ^ 11) + (851647432991468222415542888898704571417900080939097214925618427887346090486151 / 6668033638668538765900871590417992940508283753367578125000000) * (u ^ 12 * v ^ 10) + (1603718299843204184254760286294393789855828466312622294254438989801146295599953 / 17336887460538200791342266135086781645321537758755703125000000) * (u ^ 13 * v ^ 9) + (967956400979171455482808607377311875682709211015620476245582481608287552128477 / 17336887460538200791342266135086781645321537758755703125000000) * (u ^ 14 * v ^ 8) + (4857219340424940261335635613920006800635917977744585394947927278139468889487691 / 173368874605382007913422661350867816453215377587557031250000000) * (u ^ 15 * v ^ 7) + (8061953900173648201350566693270308299086900668686473681050895476422070367897517 / 693475498421528031653690645403471265812861510350228125000000000) * (u ^ 16 * v ^ 6) + (11632392980111863069593498154126100423188841510645189722172472833440282142372757 / 2947270868291494134528185242964752879704661418988469531250000000) * (u ^ 17 * v ^ 5) + (5068915937644320692132061632598930317369720060158383295397878192421991331637713 / 4715633389266390615245096388743604607527458270381551250000000000) * (u ^ 18 * v ^ 4) + (4276427896056797112433472232741957435206937529057850841069640910441276389661473 / 18862533557065562460980385554974418430109833081526205000000000000) * (u ^ 19 * v ^ 3) + (13121369977518927841854865452446448491329186058746466336887637164200221474678691 / 377250671141311249219607711099488368602196661630524100000000000000) * (u ^ 20 * v ^ 2) + (649703330601339185913131666364744222194299300820024244431770278952282004782219 / 188625335570655624609803855549744184301098330815262050000000000000) * (u ^ 21 * v ^ 1) + (62050336351631468247292711962140372225986301166086347782540282006178918273331 / 377250671141311249219607711099488368602196661630524100000000000000) * (u ^ 22 * v ^ 0) := by
    intro u v hu hv; positivity
  have := key (x - (221 / 625)) ((663 / 1250) - x) (by linarith) (by linarith)
  calc (0 : ℝ) ≤ _ := this
    _ = _ := by ring

private theorem asD_up_2 (x : ℝ) (h0 : (663 / 1250) ≤ x) (h1 : x ≤ (442 / 625)) :
    0 ≤ (65800108241 / 10000000000000000) + (-248100816249 / 1250000000000000) * x + (110617362415377 / 10000000000000000) * x ^ 2 + (-296825198749821 / 1250000000000000) * x ^ 3 + (25722010054414161 / 10000000000000000) * x ^ 4 + (-79535345514393507 / 5000000000000000) * x ^ 5 + (593684707636030407 / 10000000000000000) * x ^ 6 + (-10520597182099851 / 78125000000000) * x ^ 7 + (1762475028532922961 / 10000000000000000) * x ^ 8 + (-585781955868376863 / 5000000000000000) * x ^ 9 + (12921186799443089 / 125000000000000) * x ^ 10 + (-565692773837403281 / 1000000000000000) * x ^ 11 + (4244312169089776211 / 2000000000000000) * x ^ 12 + (-27159686849600644731 / 5000000000000000) * x ^ 13 + (12780926162003449929 / 1250000000000000) * x ^ 14 + (-34086878229211310627 / 2500000000000000) * x ^ 15 + (21869165434800135851 / 2000000000000000) * x ^ 16 + (-623819794173244419 / 1000000000000000) * x ^ 17 + (-3529133775513784219 / 312500000000000) * x ^ 18 + (79672291456580086259 / 5000000000000000) * x ^ 19 + (-115288032320931655401 / 10000000000000000) * x ^ 20 + (1147426925286592167 / 250000000000000) * x ^ 21 + (-20050428878614369 / 25000000000000) * x ^ 22 := by
  have key : ∀ u v : ℝ, 0 ≤ u → 0 ≤ v → 0 ≤ (62050336351631468247292711962140372225986301166086347782540282006178918273331 / 377250671141311249219607711099488368602196661630524100000000000000) * (u ^ 0 * v ^ 22) + (715404069134553115527307996802343966777399324833875406784115925183654197231063 / 188625335570655624609803855549744184301098330815262050000000000000) * (u ^ 1 * v ^ 21) + (15880800995913912885650271330825637763819387067328215155686154305917853557530139 / 377250671141311249219607711099488368602196661630524100000000000000) * (u ^ 2 * v ^ 20) + (5614239481073551394905509266190894174337854837862235534481743701773691814361409 / 18862533557065562460980385554974418430109833081526205000000000000) * (u ^ 3 * v ^ 19) + (7054421854015177214531511567380996813465425680058108292674380976864713801114283 / 4715633389266390615245096388743604607527458270381551250000000000) * (u ^ 4 * v ^ 18) + (133299008662006273021904164770921471429227223884116377468189830777886780338736417 / 23578166946331953076225481943718023037637291351907756250000000000) * (u ^ 5 * v ^ 17) + (23013189805085327111930170725593587847676034120862670913202668376244494638341051 / 1386950996843056063307381290806942531625723020700456250000000000) * (u ^ 6 * v ^ 16) + (6686058654054995112126106686753697100740408380993321968350205200851688063730823 / 173368874605382007913422661350867816453215377587557031250000000) * (u ^ 7 * v ^ 15) + (622542336062487090410037908190452085219021507109159630369867489278083644319181 / 8668443730269100395671133067543390822660768879377851562500000) * (u ^ 8 * v ^ 14) + (1869300431858220880841638827291873837136834458522320106087540231204850536927061 / 17336887460538200791342266135086781645321537758755703125000000) * (u ^ 9 * v ^ 13) + (872167149779086360017255930638086761361155323940885540476708663583102452220499 / 6668033638668538765900871590417992940508283753367578125000000) * (u ^ 10 * v ^ 12) + (213592073863348555691679534174357763698061109117745110657902224791399511477761 / 1667008409667134691475217897604498235127070938341894531250000) * (u ^ 11 * v ^ 11) + (42179762786129900174802707421084712051731107803461769921781992226935503014861 / 416752102416783672868804474401124558781767734585473632812500) * (u ^ 12 * v ^ 10) + (70037334469191331347537218051814260993085378572754446896546893042999315310921 / 1083555466283637549458891633442923852832596109922231445312500) * (u ^ 13 * v ^ 9) + (36832044817383963832831517421258586748144509249388146482427566026950801273593 / 1083555466283637549458891633442923852832596109922231445312500) * (u ^ 14 * v ^ 8) + (21037600313129699694775628314178848429555404932940258991758631452539345259416 / 1354444332854546936823614541803654816040745137402789306640625) * (u ^ 15 * v ^ 7) + (9106775425666275020480832241069477890850432215280699564163323358207253775951 / 1354444332854546936823614541803654816040745137402789306640625) * (u ^ 16 * v ^ 6) + (65587703895991376318137043518448990595659241157247865330583419179982938142108 / 23025553658527297926001447210662131872692667335847418212890625) * (u ^ 17 * v ^ 5) + (4930889858512937425864164008131627921183882537504828896907107245386040151508 / 4605110731705459585200289442132426374538533467169483642578125) * (u ^ 18 * v ^ 4) + (1405891875626394699191886541660581635261212684759010846929836681606787648704 / 4605110731705459585200289442132426374538533467169483642578125) * (u ^ 19 * v ^ 3) + (1294898039582762711205102862029759742820199389345592181561036708623147434704 / 23025553658527297926001447210662131872692667335847418212890625) * (u ^ 20 * v ^ 2) + (120949583370205199393927672836131092278594011450324706838552531470474123264 / 23025553658527297926001447210662131872692667335847418212890625) * (u ^ 21 * v ^ 1) + (2411742564766632013828164502253220430238008405266996388284372079725406016 / 23025553658527297926001447210662131872692667335847418212890625) * (u ^ 22 * v ^ 0) := by
    intro u v hu hv; positivity
  have := key (x - (663 / 1250)) ((442 / 625) - x) (by linarith) (by linarith)
  calc (0 : ℝ) ≤ _ := this
    _ = _ := by ring

theorem asD_up (x : ℝ) (h0 : 0 ≤ x) (h1 : x ≤ (442 / 625)) :
    0 ≤ (65800108241 / 10000000000000000) + (-248100816249 / 1250000000000000) * x + (110617362415377 / 10000000000000000) * x ^ 2 + (-296825198749821 / 1250000000000000) * x ^ 3 + (25722010054414161 / 10000000000000000) * x ^ 4 + (-79535345514393507 / 5000000000000000) * x ^ 5 + (593684707636030407 / 10000000000000000) * x ^ 6 + (-10520597182099851 / 78125000000000) * x ^ 7 + (1762475028532922961 / 10000000000000000) * x ^ 8 + (-585781955868376863 / 5000000000000000) * x ^ 9 + (12921186799443089 / 125000000000000) * x ^ 10 + (-565692773837403281 / 1000000000000000) * x ^ 11 + (4244312169089776211 / 2000000000000000) * x ^ 12 + (-27159686849600644731 / 5000000000000000) * x ^ 13 + (12780926162003449929 / 1250000000000000) * x ^ 14 + (-34086878229211310627 / 2500000000000000) * x ^ 15 + (21869165434800135851 / 2000000000000000) * x ^ 16 + (-623819794173244419 / 1000000000000000) * x ^ 17 + (-3529133775513784219 / 312500000000000) * x ^ 18 + (79672291456580086259 / 5000000000000000) * x ^ 19 + (-115288032320931655401 / 10000000000000000) * x ^ 20 + (1147426925286592167 / 250000000000000) * x ^ 21 + (-20050428878614369 / 25000000000000) * x ^ 22 := by
  rcases le_total x ((221 / 625) : ℝ) with h | h
  · exact asD_up_0 x (by linarith) h
  rcases le_total x ((663 / 1250) : ℝ) with h | h
  · exact asD_up_1 x (by linarith) h
  exact asD_up_2 x (by linarith) (by linarith)

private theorem asD_lo_0 (x : ℝ) (h0 : 0 ≤ x) (h1 : x ≤ (221 / 625)) :
    0 ≤ (54199926559 / 10000000000000000) + (248099327649 / 1250000000000000) * x + (-110676698551377 / 10000000000000000) * x ^ 2 + (296823418557021 / 1250000000000000) * x ^ 3 + (-25721871058010961 / 10000000000000000) * x ^ 4 + (79534871913566907 / 5000000000000000) * x ^ 5 + (-593681232080706807 / 10000000000000000) * x ^ 6 + (84164303901037533 / 625000000000000) * x ^ 7 + (-1762466490923833761 / 10000000000000000) * x ^ 8 + (585781363047624663 / 5000000000000000) * x ^ 9 + (-3230324244972731 / 31250000000000) * x ^ 10 + (565693746236282201 / 1000000000000000) * x ^ 11 + (-4244312848767553811 / 2000000000000000) * x ^ 12 + (27159686849600644731 / 5000000000000000) * x ^ 13 + (-12780926162003449929 / 1250000000000000) * x ^ 14 + (34086878229211310627 / 2500000000000000) * x ^ 15 + (-21869165434800135851 / 2000000000000000) * x ^ 16 + (623819794173244419 / 1000000000000000) * x ^ 17 + (3529133775513784219 / 312500000000000) * x ^ 18 + (-79672291456580086259 / 5000000000000000) * x ^ 19 + (115288032320931655401 / 10000000000000000) * x ^ 20 + (-1147426925286592167 / 250000000000000) * x ^ 21 + (20050428878614369 / 25000000000000) * x ^ 22 := by
  have key : ∀ u v : ℝ, 0 ≤ u → 0 ≤ v → 0 ≤ (11477280883559099768607969505040955482400022447109222412109375 / 247234999839169740288562109546160697247135604166180274176) * (u ^ 0 * v ^ 22) + (200558530264727309677143252120146144079626537859439849853515625 / 123617499919584870144281054773080348623567802083090137088) * (u ^ 1 * v ^ 21) + (355230761950278760654721443845716066789464093744754791259765625 / 30904374979896217536070263693270087155891950520772534272) * (u ^ 2 * v ^ 20) + (390895961859736975947503256900716905875015072524547576904296875 / 7726093744974054384017565923317521788972987630193133568) * (u ^ 3 * v ^ 19) + (31045973779041405745706776186931818983794073574244976043701171875 / 123617499919584870144281054773080348623567802083090137088) * (u ^ 4 * v ^ 18) + (153069040939442701340925426471972770059437607415020465850830078125 / 123617499919584870144281054773080348623567802083090137088) * (u ^ 5 * v ^ 17) + (16421745403441966543134941755507583138751215301454067230224609375 / 3635808821164260886596501610972951430104935355385004032) * (u ^ 6 * v ^ 16) + (1316058132420904314257538825019781825176323764026165008544921875 / 113619025661383152706140675342904732190779229855781376) * (u ^ 7 * v ^ 15) + (312275789739564001000867072081052010044004418887197971343994140625 / 14543235284657043546386006443891805720419741421540016128) * (u ^ 8 * v ^ 14) + (108613593492123937277481525589182022942506591789424419403076171875 / 3635808821164260886596501610972951430104935355385004032) * (u ^ 9 * v ^ 13) + (36427113900525580585020311942895817994858487509191036224365234375 / 1118710406512080272798923572607061978493826263195385856) * (u ^ 10 * v ^ 12) + (16491233948345906129560552305524058679786492325365543365478515625 / 559355203256040136399461786303530989246913131597692928) * (u ^ 11 * v ^ 11) + (13356742151032759016382485623484924340980586736500263214111328125 / 559355203256040136399461786303530989246913131597692928) * (u ^ 12 * v ^ 10) + (132468136004697741787667414751029346214370496290337848663330078125 / 7271617642328521773193003221945902860209870710770008064) * (u ^ 13 * v ^ 9) + (46743896716983507437844734889800295969547784211994435272216796875 / 3635808821164260886596501610972951430104935355385004032) * (u ^ 14 * v ^ 8) + (7130506834166399957656901584964080852991724718657725387939453125 / 908952205291065221649125402743237857526233838846251008) * (u ^ 15 * v ^ 7) + (56444240715021311298900346602896471620623340375489381112865234375 / 14543235284657043546386006443891805720419741421540016128) * (u ^ 16 * v ^ 6) + (184188346318046602782609023304399066256273236691398519268600246875 / 123617499919584870144281054773080348623567802083090137088) * (u ^ 17 * v ^ 5) + (26542515471003565244781775897225419639378269970183614692558749947 / 61808749959792435072140527386540174311783901041545068544) * (u ^ 18 * v ^ 4) + (1731894643733827672035525688645326334207237592468802071894747624349 / 19315234362435135960043914808293804472432469075482833920000) * (u ^ 19 * v ^ 3) + (310412289044699776655910085043456344586573153312007114804255693816919 / 24144042953043919950054893510367255590540586344353542400000000) * (u ^ 20 * v ^ 2) + (1724045536780790499738622264750205989983564736305650872932579708415043 / 1509002684565244996878430844397953474408786646522096400000000000) * (u ^ 21 * v ^ 1) + (2266347607450049429900056041875161106842185392593662078115824587098277 / 47156333892663906152450963887436046075274582703815512500000000000) * (u ^ 22 * v ^ 0) := by
    intro u v hu hv; positivity
  have := key (x - 0) ((221 / 625) - x) (by linarith) (by linarith)
  calc (0 : ℝ) ≤ _ := this
    _ = _ := by ring

private theorem asD_lo_1 (x : ℝ) (h0 : (221 / 625) ≤ x) (h1 : x ≤ (663 / 1250)) :
    0 ≤ (54199926559 / 10000000000000000) + (248099327649 / 1250000000000000) * x + (-110676698551377 / 10000000000000000) * x ^ 2 + (296823418557021 / 1250000000000000) * x ^ 3 + (-25721871058010961 / 10000000000000000) * x ^ 4 + (79534871913566907 / 5000000000000000) * x ^ 5 + (-593681232080706807 / 10000000000000000) * x ^ 6 + (84164303901037533 / 625000000000000) * x ^ 7 + (-1762466490923833761 / 10000000000000000) * x ^ 8 + (585781363047624663 / 5000000000000000) * x ^ 9 + (-3230324244972731 / 31250000000000) * x ^ 10 + (565693746236282201 / 1000000000000000) * x ^ 11 + (-4244312848767553811 / 2000000000000000) * x ^ 12 + (27159686849600644731 / 5000000000000000) * x ^ 13 + (-12780926162003449929 / 1250000000000000) * x ^ 14 + (34086878229211310627 / 2500000000000000) * x ^ 15 + (-21869165434800135851 / 2000000000000000) * x ^ 16 + (623819794173244419 / 1000000000000000) * x ^ 17 + (3529133775513784219 / 312500000000000) * x ^ 18 + (-79672291456580086259 / 5000000000000000) * x ^ 19 + (115288032320931655401 / 10000000000000000) * x ^ 20 + (-1147426925286592167 / 250000000000000) * x ^ 21 + (20050428878614369 / 25000000000000) * x ^ 22 := by
  have key : ∀ u v : ℝ, 0 ≤ u → 0 ≤ v → 0 ≤ (4641479900057701232435314773760329946812795684031819935981208754377271296 / 23025553658527297926001447210662131872692667335847418212890625) * (u ^ 0 * v ^ 22) + (97999379524918844678729475062084296565348186011269229953537338225168576768 / 23025553658527297926001447210662131872692667335847418212890625) * (u ^ 1 * v ^ 21) + (984983566024653168477633695837180196539090455891449446614448597822142412096 / 23025553658527297926001447210662131872692667335847418212890625) * (u ^ 2 * v ^ 20) + (1257291556686340160837935777899312341745135571776231013543036171785972480192 / 4605110731705459585200289442132426374538533467169483642578125) * (u ^ 3 * v ^ 19) + (5737235156958169301354887308847832424069775209824333748594535444906361720368 / 4605110731705459585200289442132426374538533467169483642578125) * (u ^ 4 * v ^ 18) + (99924704564999705437800957534333169492900284848767594166674704998242748210436 / 23025553658527297926001447210662131872692667335847418212890625) * (u ^ 5 * v ^ 17) + (16290409985215396047668930096162931374212123105313923296571008086101311227109 / 1354444332854546936823614541803654816040745137402789306640625) * (u ^ 6 * v ^ 16) + (36928149020168961010200119205508996802074426267691605547158668202308177484088 / 1354444332854546936823614541803654816040745137402789306640625) * (u ^ 7 * v ^ 15) + (13946770356300893039448639808736779651712958561205814821861115726981299449237 / 270888866570909387364722908360730963208149027480557861328125) * (u ^ 8 * v ^ 14) + (88733756961118621414274326044587009039279239981036352955679088979190095589087 / 1083555466283637549458891633442923852832596109922231445312500) * (u ^ 9 * v ^ 13) + (45963828397017730037577362137826003235723444782490532461650306950697150387409 / 416752102416783672868804474401124558781767734585473632812500) * (u ^ 10 * v ^ 12) + (209786666209595485105033022828469948787670579779492182681820921168776485862893 / 1667008409667134691475217897604498235127070938341894531250000) * (u ^ 11 * v ^ 11) + (808774069788543974325250651161463422052621698426565736096768123015974222013849 / 6668033638668538765900871590417992940508283753367578125000000) * (u ^ 12 * v ^ 10) + (1701888490666106154382922947041814419587576806445186849259002096014283391900047 / 17336887460538200791342266135086781645321537758755703125000000) * (u ^ 13 * v ^ 9) + (1147051387145024732197243926457136868202521906828902920097410300984485885371523 / 17336887460538200791342266135086781645321537758755703125000000) * (u ^ 14 * v ^ 8) + (6368106407550454810506395217992343645046868795825529351741869169614437360512309 / 173368874605382007913422661350867816453215377587557031250000000) * (u ^ 15 * v ^ 7) + (11484393442920753740005567574767084712049842662757976041715980744281054632102483 / 693475498421528031653690645403471265812861510350228125000000000) * (u ^ 16 * v ^ 6) + (17536782827395702263104690181986622184904181675526004816301610113337061607627243 / 2947270868291494134528185242964752879704661418988469531250000000) * (u ^ 17 * v ^ 5) + (7826810957140154539907834607633743235954658832760665371556162334921758668362287 / 4715633389266390615245096388743604607527458270381551250000000000) * (u ^ 18 * v ^ 4) + (6524260014408053771857044210525191227479665752309719320749817097371223610338527 / 18862533557065562460980385554974418430109833081526205000000000000) * (u ^ 19 * v ^ 3) + (19100067534443089835623911691628774938020592404572477640468319867049778525321309 / 377250671141311249219607711099488368602196661630524100000000000000) * (u ^ 20 * v ^ 2) + (875854868164038954830049694642443505232383987061290510054313705422717995217781 / 188625335570655624609803855549744184301098330815262050000000000000) * (u ^ 21 * v ^ 1) + (75819082371616637192821846435990735106497803690762368953299561743821081726669 / 377250671141311249219607711099488368602196661630524100000000000000) * (u ^ 22 * v ^ 0) := by
    intro u v hu hv; positivity
  have := key (x - (221 / 625)) ((663 / 1250) - x) (by linarith) (by linarith)
  calc (0 : ℝ) ≤ _ := this
    _ = _ := by ring

private theorem asD_lo_2 (x : ℝ) (h0 : (663 / 1250) ≤ x) (h1 : x ≤ (442 / 625)) :
    0 ≤ (54199926559 / 10000000000000000) + (248099327649 / 1250000000000000) * x + (-110676698551377 / 10000000000000000) * x ^ 2 + (296823418557021 / 1250000000000000) * x ^ 3 + (-25721871058010961 / 10000000000000000) * x ^ 4 + (79534871913566907 / 5000000000000000) * x ^ 5 + (-593681232080706807 / 10000000000000000) * x ^ 6 + (84164303901037533 / 625000000000000) * x ^ 7 + (-1762466490923833761 / 10000000000000000) * x ^ 8 + (585781363047624663 / 5000000000000000) * x ^ 9 + (-3230324244972731 / 31250000000000) * x ^ 10 + (565693746236282201 / 1000000000000000) * x ^ 11 + (-4244312848767553811 / 2000000000000000) * x ^ 12 + (27159686849600644731 / 5000000000000000) * x ^ 13 + (-12780926162003449929 / 1250000000000000) * x ^ 14 + (34086878229211310627 / 2500000000000000) * x ^ 15 + (-21869165434800135851 / 2000000000000000) * x ^ 16 + (623819794173244419 / 1000000000000000) * x ^ 17 + (3529133775513784219 / 312500000000000) * x ^ 18 + (-79672291456580086259 / 5000000000000000) * x ^ 19 + (115288032320931655401 / 10000000000000000) * x ^ 20 + (-1147426925286592167 / 250000000000000) * x ^ 21 + (20050428878614369 / 25000000000000) * x ^ 22 := by
  have key : ∀ u v : ℝ, 0 ≤ u → 0 ≤ v → 0 ≤ (75819082371616637192821846435990735106497803690762368953299561743821081726669 / 377250671141311249219607711099488368602196661630524100000000000000) * (u ^ 0 * v ^ 22) + (792164944011527063412030926949352667110567694135481606918276652941345802768937 / 188625335570655624609803855549744184301098330815262050000000000000) * (u ^ 1 * v ^ 21) + (15585090720037590396067123448518959736904308101688503708754763662832146442469861 / 377250671141311249219607711099488368602196661630524100000000000000) * (u ^ 2 * v ^ 20) + (4808620869614702204444862227337397034643911217196452390857001415413808185638591 / 18862533557065562460980385554974418430109833081526205000000000000) * (u ^ 3 * v ^ 19) + (5242904975513775373998218239082261555085608270538939513111751835635286198885717 / 4715633389266390615245096388743604607527458270381551250000000000) * (u ^ 4 * v ^ 18) + (86584550404496188802275735368255299126618588535639006857791309358831969661263583 / 23578166946331953076225481943718023037637291351907756250000000000) * (u ^ 5 * v ^ 17) + (13383974383111208478948351808897697086951636446200943812863920979224255361658949 / 1386950996843056063307381290806942531625723020700456250000000000) * (u ^ 6 * v ^ 16) + (3640105185669785332675169227851872855438048104039480479326453429519405686269177 / 173368874605382007913422661350867816453215377587557031250000000) * (u ^ 7 * v ^ 15) + (338538760341200071354814793793184240805046884338348844442044093668693699430819 / 8668443730269100395671133067543390822660768879377851562500000) * (u ^ 8 * v ^ 14) + (1098482318816123617311684065135118285095693639872366715760613836788313525572939 / 17336887460538200791342266135086781645321537758755703125000000) * (u ^ 9 * v ^ 13) + (600354873275820323526080015281819276944921719717411502817005859732327235279501 / 6668033638668538765900871590417992940508283753367578125000000) * (u ^ 10 * v ^ 12) + (184835408861534459492309856358681494855874782652998072202412621247418847897239 / 1667008409667134691475217897604498235127070938341894531250000) * (u ^ 11 * v ^ 11) + (48384052590482706071269823546978644571977637682502985140231872290276411047639 / 416752102416783672868804474401124558781767734585473632812500) * (u ^ 12 * v ^ 10) + (109572151955841175144404673382795992625321547294629969154662079887908887814079 / 1083555466283637549458891633442923852832596109922231445312500) * (u ^ 13 * v ^ 9) + (77633323523974604986111925606794795933036878958526859723012001538967167476407 / 1083555466283637549458891633442923852832596109922231445312500) * (u ^ 14 * v ^ 8) + (54592359742103924296107132189474881858944088150205094020028306261083701615584 / 1354444332854546936823614541803654816040745137402789306640625) * (u ^ 15 * v ^ 7) + (23676931339097341130565506516542973339960752779391958357746962591499777474049 / 1354444332854546936823614541803654816040745137402789306640625) * (u ^ 16 * v ^ 6) + (129246204978941258623366341068886953057417261973184818643921051645212374357892 / 23025553658527297926001447210662131872692667335847418212890625) * (u ^ 17 * v ^ 5) + (5787014221695230891217236497886890951242505718048491153332455742895209848492 / 4605110731705459585200289442132426374538533467169483642578125) * (u ^ 18 * v ^ 4) + (827626635696275952195452294293035058575687953657398645562839099643212351296 / 4605110731705459585200289442132426374538533467169483642578125) * (u ^ 19 * v ^ 3) + (362671552446120834315682582075759396535191595219427425982908603876852565296 / 23025553658527297926001447210662131872692667335847418212890625) * (u ^ 20 * v ^ 2) + (35200572515627898433142038836873716424513002848114319040353718529525876736 / 23025553658527297926001447210662131872692667335847418212890625) * (u ^ 21 * v ^ 1) + (4606187597993491506102720922552408092261036951841119761617971670274593984 / 23025553658527297926001447210662131872692667335847418212890625) * (u ^ 22 * v ^ 0) := by
    intro u v hu hv; positivity
  have := key (x - (663 / 1250)) ((442 / 625) - x) (by linarith) (by linarith)
  calc (0 : ℝ) ≤ _ := this
    _ = _ := by ring

theorem asD_lo (x : ℝ) (h0 : 0 ≤ x) (h1 : x ≤ (442 / 625)) :
    0 ≤ (54199926559 / 10000000000000000) + (248099327649 / 1250000000000000) * x + (-110676698551377 / 10000000000000000) * x ^ 2 + (296823418557021 / 1250000000000000) * x ^ 3 + (-25721871058010961 / 10000000000000000) * x ^ 4 + (79534871913566907 / 5000000000000000) * x ^ 5 + (-593681232080706807 / 10000000000000000) * x ^ 6 + (84164303901037533 / 625000000000000) * x ^ 7 + (-1762466490923833761 / 10000000000000000) * x ^ 8 + (585781363047624663 / 5000000000000000) * x ^ 9 + (-3230324244972731 / 31250000000000) * x ^ 10 + (565693746236282201 / 1000000000000000) * x ^ 11 + (-4244312848767553811 / 2000000000000000) * x ^ 12 + (27159686849600644731 / 5000000000000000) * x ^ 13 + (-12780926162003449929 / 1250000000000000) * x ^ 14 + (34086878229211310627 / 2500000000000000) * x ^ 15 + (-21869165434800135851 / 2000000000000000) * x ^ 16 + (623819794173244419 / 1000000000000000) * x ^ 17 + (3529133775513784219 / 312500000000000) * x ^ 18 + (-79672291456580086259 / 5000000000000000) * x ^ 19 + (115288032320931655401 / 10000000000000000) * x ^ 20 + (-1147426925286592167 / 250000000000000) * x ^ 21 + (20050428878614369 / 25000000000000) * x ^ 22 := by
  rcases le_total x ((221 / 625) : ℝ) with h | h
  · exact asD_lo_0 x (by linarith) h
  rcases le_total x ((663 / 1250) : ℝ) with h | h
  · exact asD_lo_1 x (by linarith) h
  exact asD_lo_2 x (by linarith) (by linarith)

private theorem asPos_0 (x : ℝ) (h0 : 0 ≤ x) (h1 : x ≤ (442 / 625)) :
    0 ≤ (100000029 / 100000000) + (-2481 / 25000000) * x + (50553249 / 100000000) * x ^ 2 + (-2969469 / 25000000) * x ^ 3 + (33276717 / 20000000) * x ^ 4 + (-801212587 / 100000000) * x ^ 5 + (382834961 / 12500000) * x ^ 6 + (-1778822351 / 25000000) * x ^ 7 + (10177353929 / 100000000) * x ^ 8 + (-8103323991 / 100000000) * x ^ 9 + (141599537 / 5000000) * x ^ 10 := by
  have key : ∀ u v : ℝ, 0 ≤ u → 0 ≤ v → 0 ≤ (2328307111747562885284423828125 / 72855552968014478426820050944) * (u ^ 0 * v ^ 10) + (11641453855521976947784423828125 / 36427776484007239213410025472) * (u ^ 1 * v ^ 9) + (105361021826163589954376220703125 / 72855552968014478426820050944) * (u ^ 2 * v ^ 8) + (35500316921411765956878662109375 / 9106944121001809803352506368) * (u ^ 3 * v ^ 7) + (252848940730909192993927001953125 / 36427776484007239213410025472) * (u ^ 4 * v ^ 6) + (155034600273633037438739990234375 / 18213888242003619606705012736) * (u ^ 5 * v ^ 5) + (266831747861332213387260844140625 / 36427776484007239213410025472) * (u ^ 6 * v ^ 4) + (39541531486968769045738559219375 / 9106944121001809803352506368) * (u ^ 7 * v ^ 3) + (125112685346821400919811132858489 / 72855552968014478426820050944) * (u ^ 8 * v ^ 2) + (9261621074111789768312879087375949 / 22767360302504524508381265920000) * (u ^ 9 * v ^ 1) + (257277699546305437431809706664953077 / 5691840075626131127095316480000000) * (u ^ 10 * v ^ 0) := by
    intro u v hu hv; positivity
  have := key (x - 0) ((442 / 625) - x) (by linarith) (by linarith)
  calc (0 : ℝ) ≤ _ := this
    _ = _ := by ring

theorem asPos (x : ℝ) (h0 : 0 ≤ x) (h1 : x ≤ (442 / 625)) :
    0 ≤ (100000029 / 100000000) + (-2481 / 25000000) * x + (50553249 / 100000000) * x ^ 2 + (-2969469 / 25000000) * x ^ 3 + (33276717 / 20000000) * x ^ 4 + (-801212587 / 100000000) * x ^ 5 + (382834961 / 12500000) * x ^ 6 + (-1778822351 / 25000000) * x ^ 7 + (10177353929 / 100000000) * x ^ 8 + (-8103323991 / 100000000) * x ^ 9 + (141599537 / 5000000) * x ^ 10 := by
  exact asPos_0 x (by linarith) (by linarith)

private theorem as3Up_lo_0 (x : ℝ) (h0 : 0 ≤ x) (h1 : x ≤ (221 / 625)) :
    0 ≤ (37 / 500000) + (-967814807 / 10000000000000) * x + (2481 / 25000000) * x ^ 2 + (8840274039 / 5000000000000) * x ^ 3 + (2969469 / 50000000) * x ^ 4 + (-1408243720297 / 2500000000000) * x ^ 5 + (801212587 / 300000000) * x ^ 6 + (-74712886832137 / 8750000000000) * x ^ 7 + (1778822351 / 100000000) * x ^ 8 + (-10177353929 / 450000000) * x ^ 9 + (8103323991 / 500000000) * x ^ 10 + (-141599537 / 27500000) * x ^ 11 := by
  have key : ∀ u v : ℝ, 0 ≤ u → 0 ≤ v → 0 ≤ (13460521586239337921142578125 / 1965463526114648404825101472) * (u ^ 0 * v ^ 11) + (36311245915688574314117431640625 / 503158662685349991635225976832) * (u ^ 1 * v ^ 10) + (87083060182519257068634033203125 / 251579331342674995817612988416) * (u ^ 2 * v ^ 9) + (505701459303057475719451904296875 / 503158662685349991635225976832) * (u ^ 3 * v ^ 8) + (129883779965249206409454345703125 / 62894832835668748954403247104) * (u ^ 4 * v ^ 7) + (782722842409230936898468310546875 / 251579331342674995817612988416) * (u ^ 5 * v ^ 6) + (1311054389728181529068127880859375 / 377368997014012493726419482624) * (u ^ 6 * v ^ 5) + (14793776335470222241392777439890125 / 5283165958196174912169872756736) * (u ^ 7 * v ^ 4) + (2039628106316182161166788792623875 / 1320791489549043728042468189184) * (u ^ 8 * v ^ 3) + (17121932865973527055244877140401223 / 31698995749177049473019236540416) * (u ^ 9 * v ^ 2) + (5264403914337704659465409305537935403 / 49529680858089139801592557094400000) * (u ^ 10 * v ^ 1) + (242475959064544626090216782898774006419 / 27241324471949026890875906401920000000) * (u ^ 11 * v ^ 0) := by
    intro u v hu hv; positivity
  have := key (x - 0) ((221 / 625) - x) (by linarith) (by linarith)
  calc (0 : ℝ) ≤ _ := this
    _ = _ := by ring

private theorem as3Up_lo_1 (x : ℝ) (h0 : (221 / 625) ≤ x) (h1 : x ≤ (663 / 1250)) :
    0 ≤ (37 / 500000) + (-967814807 / 10000000000000) * x + (2481 / 25000000) * x ^ 2 + (8840274039 / 5000000000000) * x ^ 3 + (2969469 / 50000000) * x ^ 4 + (-1408243720297 / 2500000000000) * x ^ 5 + (801212587 / 300000000) * x ^ 6 + (-74712886832137 / 8750000000000) * x ^ 7 + (1778822351 / 100000000) * x ^ 8 + (-10177353929 / 450000000) * x ^ 9 + (8103323991 / 500000000) * x ^ 10 + (-141599537 / 27500000) * x ^ 11 := by
  have key : ∀ u v : ℝ, 0 ≤ u → 0 ≤ v → 0 ≤ (242475959064544626090216782898774006419 / 13301427964818860786560501172812500) * (u ^ 0 * v ^ 11) + (464207681476748645297379883419425249107 / 2418441448148883779374636576875000) * (u ^ 1 * v ^ 10) + (435246329155213298605264729873177273123 / 483688289629776755874927315375000) * (u ^ 2 * v ^ 9) + (796361953187404043077756412290811494319 / 322458859753184503916618210250000) * (u ^ 3 * v ^ 8) + (1415556499118560992914396605335922976557 / 322458859753184503916618210250000) * (u ^ 4 * v ^ 7) + (2433627974922698855422814278698964066721 / 460655513933120719880883157500000) * (u ^ 5 * v ^ 6) + (672163169305824795513773006443277437823 / 153551837977706906626961052500000) * (u ^ 6 * v ^ 5) + (1074994975083360813805975836557862815919 / 429945146337579338555490947000000) * (u ^ 7 * v ^ 4) + (105244596390442542260219276813209627077 / 107486286584394834638872736750000) * (u ^ 8 * v ^ 3) + (7047355380701503268123853417979833569 / 26871571646098708659718184187500) * (u ^ 9 * v ^ 2) + (203237477352809936675458256663917682037 / 4299451463375793385554909470000000) * (u ^ 10 * v ^ 1) + (220899027008346963789312691461339935393 / 47293966097133727241104004170000000) * (u ^ 11 * v ^ 0) := by
    intro u v hu hv; positivity
  have := key (x - (221 / 625)) ((663 / 1250) - x) (by linarith) (by linarith)
  calc (0 : ℝ) ≤ _ := this
    _ = _ := by ring

private theorem as3Up_lo_2 (x : ℝ) (h0 : (663 / 1250) ≤ x) (h1 : x ≤ (442 / 625)) :
    0 ≤ (37 / 500000) + (-967814807 / 10000000000000) * x + (2481 / 25000000) * x ^ 2 + (8840274039 / 5000000000000) * x ^ 3 + (2969469 / 50000000) * x ^ 4 + (-1408243720297 / 2500000000000) * x ^ 5 + (801212587 / 300000000) * x ^ 6 + (-74712886832137 / 8750000000000) * x ^ 7 + (1778822351 / 100000000) * x ^ 8 + (-10177353929 / 450000000) * x ^ 9 + (8103323991 / 500000000) * x ^ 10 + (-141599537 / 27500000) * x ^ 11 := by
  have key : ∀ u v : ℝ, 0 ≤ u → 0 ≤ v → 0 ≤ (220899027008346963789312691461339935393 / 47293966097133727241104004170000000) * (u ^ 0 * v ^ 11) + (238560576663883990903167126258762188749 / 4299451463375793385554909470000000) * (u ^ 1 * v ^ 10) + (18510098175287263314711315535315230477 / 53743143292197417319436368375000) * (u ^ 2 * v ^ 9) + (300586847914923738746148177355457253807 / 214972573168789669277745473500000) * (u ^ 3 * v ^ 8) + (1668803073762201979952316945946202649279 / 429945146337579338555490947000000) * (u ^ 4 * v ^ 7) + (285044239899351730577159350437313067209 / 38387959494426726656740263125000) * (u ^ 5 * v ^ 6) + (4494017870385891549930295364210218007819 / 460655513933120719880883157500000) * (u ^ 6 * v ^ 5) + (1394583117529139596296358158821928995723 / 161229429876592251958309105125000) * (u ^ 7 * v ^ 4) + (1597943899092044720944847579468384851439 / 322458859753184503916618210250000) * (u ^ 8 * v ^ 3) + (201035219031558738345702087403973684069 / 120922072407444188968731828843750) * (u ^ 9 * v ^ 2) + (605975480755574205760948872012991597193 / 2418441448148883779374636576875000) * (u ^ 10 * v ^ 1) + (6526164882213248050965364571042853881 / 6650713982409430393280250586406250) * (u ^ 11 * v ^ 0) := by
    intro u v hu hv; positivity
  have := key (x - (663 / 1250)) ((442 / 625) - x) (by linarith) (by linarith)
  calc (0 : ℝ) ≤ _ := this
    _ = _ := by ring

theorem as3Up_lo (x : ℝ) (h0 : 0 ≤ x) (h1 : x ≤ (442 / 625)) :
    0 ≤ (37 / 500000) + (-967814807 / 10000000000000) * x + (2481 / 25000000) * x ^ 2 + (8840274039 / 5000000000000) * x ^ 3 + (2969469 / 50000000) * x ^ 4 + (-1408243720297 / 2500000000000) * x ^ 5 + (801212587 / 300000000) * x ^ 6 + (-74712886832137 / 8750000000000) * x ^ 7 + (1778822351 / 100000000) * x ^ 8 + (-10177353929 / 450000000) * x ^ 9 + (8103323991 / 500000000) * x ^ 10 + (-141599537 / 27500000) * x ^ 11 := by
  rcases le_total x ((221 / 625) : ℝ) with h | h
  · exact as3Up_lo_0 x (by linarith) h
  rcases le_total x ((663 / 1250) : ℝ) with h | h
  · exact as3Up_lo_1 x (by linarith) h
  exact as3Up_lo_2 x (by linarith) (by linarith)

private theorem as3Lo_lo_0 (x : ℝ) (h0 : 0 ≤ x) (h1 : x ≤ (221 / 625)) :
    0 ≤ (37 / 500000) + (967814807 / 10000000000000) * x + (-2481 / 25000000) * x ^ 2 + (-8840274039 / 5000000000000) * x ^ 3 + (-2969469 / 50000000) * x ^ 4 + (1408243720297 / 2500000000000) * x ^ 5 + (-801212587 / 300000000) * x ^ 6 + (74712886832137 / 8750000000000) * x ^ 7 + (-1778822351 / 100000000) * x ^ 8 + (10177353929 / 450000000) * x ^ 9 + (-8103323991 / 500000000) * x ^ 10 + (141599537 / 27500000) * x ^ 11 := by
  have key : ∀ u v : ℝ, 0 ≤ u → 0 ≤ v → 0 ≤ (13460521586239337921142578125 / 1965463526114648404825101472) * (u ^ 0 * v ^ 11) + (39498411658011376857757568359375 / 503158662685349991635225976832) * (u ^ 1 * v ^ 10) + (102441083751730620861053466796875 / 251579331342674995817612988416) * (u ^ 2 * v ^ 9) + (631443404302441791858673095703125 / 503158662685349991635225976832) * (u ^ 3 * v ^ 8) + (154402435936125610485076904296875 / 62894832835668748954403247104) * (u ^ 4 * v ^ 7) + (809279966638468037710906689453125 / 251579331342674995817612988416) * (u ^ 5 * v ^ 6) + (1076949823843366932845934619140625 / 377368997014012493726419482624) * (u ^ 6 * v ^ 5) + (9086265800245262377747847560109875 / 5283165958196174912169872756736) * (u ^ 7 * v ^ 4) + (945377160648253416225789332376125 / 1320791489549043728042468189184) * (u ^ 8 * v ^ 3) + (6758109269741957563895747859598777 / 31698995749177049473019236540416) * (u ^ 9 * v ^ 2) + (2198109253073384284016036006962064597 / 49529680858089139801592557094400000) * (u ^ 10 * v ^ 1) + (130649699306009821083855482726225993581 / 27241324471949026890875906401920000000) * (u ^ 11 * v ^ 0) := by
    intro u v hu hv; positivity
  have := key (x - 0) ((221 / 625) - x) (by linarith) (by linarith)
  calc (0 : ℝ) ≤ _ := this
    _ = _ := by ring

private theorem as3Lo_lo_1 (x : ℝ) (h0 : (221 / 625) ≤ x) (h1 : x ≤ (663 / 1250)) :
    0 ≤ (37 / 500000) + (967814807 / 10000000000000) * x + (-2481 / 25000000) * x ^ 2 + (-8840274039 / 5000000000000) * x ^ 3 + (-2969469 / 50000000) * x ^ 4 + (1408243720297 / 2500000000000) * x ^ 5 + (-801212587 / 300000000) * x ^ 6 + (74712886832137 / 8750000000000) * x ^ 7 + (-1778822351 / 100000000) * x ^ 8 + (10177353929 / 450000000) * x ^ 9 + (-8103323991 / 500000000) * x ^ 10 + (141599537 / 27500000) * x ^ 11 := by
  have key : ∀ u v : ℝ, 0 ≤ u → 0 ≤ v → 0 ≤ (130649699306009821083855482726225993581 / 13301427964818860786560501172812500) * (u ^ 0 * v ^ 11) + (282043635264360249050764647830574750893 / 2418441448148883779374636576875000) * (u ^ 1 * v ^ 10) + (311004987585895595742879801376822726877 / 483688289629776755874927315375000) * (u ^ 2 * v ^ 9) + (696140680294813745618532650209188505681 / 322458859753184503916618210250000) * (u ^ 3 * v ^ 8) + (1569448767845874584478181519664077023443 / 322458859753184503916618210250000) * (u ^ 4 * v ^ 7) + (3536382559006172299362341971301035933279 / 460655513933120719880883157500000) * (u ^ 5 * v ^ 6) + (1317840342003798922747945743556722562177 / 153551837977706906626961052500000) * (u ^ 6 * v ^ 5) + (2905012047535886622717461663442137184081 / 429945146337579338555490947000000) * (u ^ 7 * v ^ 4) + (392256281436963387305210410686790372923 / 107486286584394834638872736750000) * (u ^ 8 * v ^ 3) + (34411051104915657528995287207020166431 / 26871571646098708659718184187500) * (u ^ 9 * v ^ 2) + (1123431530186939208832354243336082317963 / 4299451463375793385554909470000000) * (u ^ 10 * v ^ 1) + (1105769980531402181718499808538660064607 / 47293966097133727241104004170000000) * (u ^ 11 * v ^ 0) := by
    intro u v hu hv; positivity
  have := key (x - (221 / 625)) ((663 / 1250) - x) (by linarith) (by linarith)
  calc (0 : ℝ) ≤ _ := this
    _ = _ := by ring

private theorem as3Lo_lo_2 (x : ℝ) (h0 : (663 / 1250) ≤ x) (h1 : x ≤ (1547 / 2500)) :
    0 ≤ (37 / 500000) + (967814807 / 10000000000000) * x + (-2481 / 25000000) * x ^ 2 + (-8840274039 / 5000000000000) * x ^ 3 + (-2969469 / 50000000) * x ^ 4 + (1408243720297 / 2500000000000) * x ^ 5 + (-801212587 / 300000000) * x ^ 6 + (74712886832137 / 8750000000000) * x ^ 7 + (-1778822351 / 100000000) * x ^ 8 + (10177353929 / 450000000) * x ^ 9 + (-8103323991 / 500000000) * x ^ 10 + (141599537 / 27500000) * x ^ 11 := by
  have key : ∀ u v : ℝ, 0 ≤ u → 0 ≤ v → 0 ≤ (17692319688502434907495996936618561033712 / 369484110133857244071125032578125) * (u ^ 0 * v ^ 11) + (17551027291258138690585161458239183006864 / 33589464557623385824647730234375) * (u ^ 1 * v ^ 10) + (17249977116073141693600888029824367997908 / 6717892911524677164929546046875) * (u ^ 2 * v ^ 9) + (50325024762105843620776071285559796582328 / 6717892911524677164929546046875) * (u ^ 3 * v ^ 8) + (96691174892065193135283019505413057682532 / 6717892911524677164929546046875) * (u ^ 4 * v ^ 7) + (91586428664091957528548336947335428797279 / 4798494936803340832092532890625) * (u ^ 5 * v ^ 6) + (256018892898095471084973678539155753366864 / 14395484810410022496277598671875) * (u ^ 6 * v ^ 5) + (133732105903802066915950115977169295858001 / 11516387848328017997022078937500) * (u ^ 7 * v ^ 4) + (239086269656588271813747083490340673928119 / 46065551393312071988088315750000) * (u ^ 8 * v ^ 3) + (104132032106705753211144943375242986386759 / 69098327089968107982132473625000) * (u ^ 9 * v ^ 2) + (705019111979030562340201640717881162291409 / 2763933083598724319285298945000000) * (u ^ 10 * v ^ 1) + (579638487694279979299501541625059854319273 / 30403263919585967512138288395000000) * (u ^ 11 * v ^ 0) := by
    intro u v hu hv; positivity
  have := key (x - (663 / 1250)) ((1547 / 2500) - x) (by linarith) (by linarith)
  calc (0 : ℝ) ≤ _ := this
    _ = _ := by ring

private theorem as3Lo_lo_3 (x : ℝ) (h0 : (1547 / 2500) ≤ x) (h1 : x ≤ (442 / 625)) :
    0 ≤ (37 / 500000) + (967814807 / 10000000000000) * x + (-2481 / 25000000) * x ^ 2 + (-8840274039 / 5000000000000) * x ^ 3 + (-2969469 / 50000000) * x ^ 4 + (1408243720297 / 2500000000000) * x ^ 5 + (-801212587 / 300000000) * x ^ 6 + (74712886832137 / 8750000000000) * x ^ 7 + (-1778822351 / 100000000) * x ^ 8 + (10177353929 / 450000000) * x ^ 9 + (-8103323991 / 500000000) * x ^ 10 + (141599537 / 27500000) * x ^ 11 := by
  have key : ∀ u v : ℝ, 0 ≤ u → 0 ≤ v → 0 ≤ (579638487694279979299501541625059854319273 / 30403263919585967512138288395000000) * (u ^ 0 * v ^ 11) + (454257863409529396258801442532238546347137 / 2763933083598724319285298945000000) * (u ^ 1 * v ^ 10) + (41441719964330461690794893828832332400691 / 69098327089968107982132473625000) * (u ^ 2 * v ^ 9) + (13679438768837259574597599527262846119327 / 11516387848328017997022078937500) * (u ^ 3 * v ^ 8) + (15756325310824765966636943400233332900651 / 11516387848328017997022078937500) * (u ^ 4 * v ^ 7) + (14392971603581650166279580245900070945502 / 14395484810410022496277598671875) * (u ^ 5 * v ^ 6) + (3971849536347210800520082509700795937446 / 4798494936803340832092532890625) * (u ^ 6 * v ^ 5) + (8234558630405584362537932987954768824624 / 6717892911524677164929546046875) * (u ^ 7 * v ^ 4) + (9755571778224728796561059595679756355728 / 6717892911524677164929546046875) * (u ^ 8 * v ^ 3) + (60339761267084750098176676676732841844096 / 60461036203722094484365914421875) * (u ^ 9 * v ^ 2) + (110134079129317195613629277721963134372224 / 302305181018610472421829572109375) * (u ^ 10 * v ^ 1) + (184357544246337510948936466679252117625856 / 3325356991204715196640125293203125) * (u ^ 11 * v ^ 0) := by
    intro u v hu hv; positivity
  have := key (x - (1547 / 2500)) ((442 / 625) - x) (by linarith) (by linarith)
  calc (0 : ℝ) ≤ _ := this
    _ = _ := by ring

theorem as3Lo_lo (x : ℝ) (h0 : 0 ≤ x) (h1 : x ≤ (442 / 625)) :
    0 ≤ (37 / 500000) + (967814807 / 10000000000000) * x + (-2481 / 25000000) * x ^ 2 + (-8840274039 / 5000000000000) * x ^ 3 + (-2969469 / 50000000) * x ^ 4 + (1408243720297 / 2500000000000) * x ^ 5 + (-801212587 / 300000000) * x ^ 6 + (74712886832137 / 8750000000000) * x ^ 7 + (-1778822351 / 100000000) * x ^ 8 + (10177353929 / 450000000) * x ^ 9 + (-8103323991 / 500000000) * x ^ 10 + (141599537 / 27500000) * x ^ 11 := by
  rcases le_total x ((221 / 625) : ℝ) with h | h
  · exact as3Lo_lo_0 x (by linarith) h
  rcases le_total x ((663 / 1250) : ℝ) with h | h
  · exact as3Lo_lo_1 x (by linarith) h
  rcases le_total x ((1547 / 2500) : ℝ) with h | h
  · exact as3Lo_lo_2 x (by linarith) h
  exact as3Lo_lo_3 x (by linarith) (by linarith)

private theorem as3Up_hi_0 (x : ℝ) (h0 : 0 ≤ x) (h1 : x ≤ (221 / 625)) :
    0 ≤ (37 / 500000) + (-476836673 / 5000000000000) * x + (2481 / 25000000) * x ^ 2 + (4420735921 / 2500000000000) * x ^ 3 + (2969469 / 50000000) * x ^ 4 + (-704121769783 / 1250000000000) * x ^ 5 + (801212587 / 300000000) * x ^ 6 + (-37356442760543 / 4375000000000) * x ^ 7 + (1778822351 / 100000000) * x ^ 8 + (-10177353929 / 450000000) * x ^ 9 + (8103323991 / 500000000) * x ^ 10 + (-141599537 / 27500000) * x ^ 11 := by
  have key : ∀ u v : ℝ, 0 ≤ u → 0 ≤ v → 0 ≤ (13460521586239337921142578125 / 1965463526114648404825101472) * (u ^ 0 * v ^ 11) + (18167265469335019588470458984375 / 251579331342674995817612988416) * (u ^ 1 * v ^ 10) + (43599742648713290691375732421875 / 125789665671337497908806494208) * (u ^ 2 * v ^ 9) + (253374889268173147907257080078125 / 251579331342674995817612988416) * (u ^ 3 * v ^ 8) + (65116774254547040309906005859375 / 31447416417834374477201623552) * (u ^ 4 * v ^ 7) + (392587341957263642861240673828125 / 125789665671337497908806494208) * (u ^ 5 * v ^ 6) + (657738028587768762838619189453125 / 188684498507006246863209741312) * (u ^ 6 * v ^ 5) + (7422742647029891489238504239789875 / 2641582979098087456084936378368) * (u ^ 7 * v ^ 4) + (1023518208218452531039199613422375 / 660395744774521864021234094592) * (u ^ 8 * v ^ 3) + (8594417658905083728792246576606049 / 15849497874588524736509618270208) * (u ^ 9 * v ^ 2) + (2643863196474693712022886485206272389 / 24764840429044569900796278547200000) * (u ^ 10 * v ^ 1) + (121882297733110886190685037734772745397 / 13620662235974513445437953200960000000) * (u ^ 11 * v ^ 0) := by
    intro u v hu hv; positivity
  have := key (x - 0) ((221 / 625) - x) (by linarith) (by linarith)
  calc (0 : ℝ) ≤ _ := this
    _ = _ := by ring

private theorem as3Up_hi_1 (x : ℝ) (h0 : (221 / 625) ≤ x) (h1 : x ≤ (663 / 1250)) :
    0 ≤ (37 / 500000) + (-476836673 / 5000000000000) * x + (2481 / 25000000) * x ^ 2 + (4420735921 / 2500000000000) * x ^ 3 + (2969469 / 50000000) * x ^ 4 + (-704121769783 / 1250000000000) * x ^ 5 + (801212587 / 300000000) * x ^ 6 + (-37356442760543 / 4375000000000) * x ^ 7 + (1778822351 / 100000000) * x ^ 8 + (-10177353929 / 450000000) * x ^ 9 + (8103323991 / 500000000) * x ^ 10 + (-141599537 / 27500000) * x ^ 11 := by
  have key : ∀ u v : ℝ, 0 ≤ u → 0 ≤ v → 0 ≤ (121882297733110886190685037734772745397 / 6650713982409430393280250586406250) * (u ^ 0 * v ^ 11) + (233453733375597972970910788944004616741 / 1209220724074441889687318288437500) * (u ^ 1 * v ^ 10) + (219034748287990897685839123405271253749 / 241844144814888377937463657687500) * (u ^ 2 * v ^ 9) + (401128465404689124449554493483912583097 / 161229429876592251958309105125000) * (u ^ 3 * v ^ 8) + (713923898325981695325455647013614808591 / 161229429876592251958309105125000) * (u ^ 4 * v ^ 7) + (1229611008756210315560523810513256447423 / 230327756966560359940441578750000) * (u ^ 5 * v ^ 6) + (340517411409177406342479718937961961099 / 76775918988853453313480526250000) * (u ^ 6 * v ^ 5) + (546712862037194706025153915541961681397 / 214972573168789669277745473500000) * (u ^ 7 * v ^ 4) + (26908823751689327678252718079729652863 / 26871571646098708659718184187500) * (u ^ 8 * v ^ 3) + (29015607111169849558109975173397849901 / 107486286584394834638872736750000) * (u ^ 9 * v ^ 2) + (210084157280150632742563461027472369537 / 4299451463375793385554909470000000) * (u ^ 10 * v ^ 1) + (227986066576883446288204632364406341643 / 47293966097133727241104004170000000) * (u ^ 11 * v ^ 0) := by
    intro u v hu hv; positivity
  have := key (x - (221 / 625)) ((663 / 1250) - x) (by linarith) (by linarith)
  calc (0 : ℝ) ≤ _ := this
    _ = _ := by ring

private theorem as3Up_hi_2 (x : ℝ) (h0 : (663 / 1250) ≤ x) (h1 : x ≤ (442 / 625)) :
    0 ≤ (37 / 500000) + (-476836673 / 5000000000000) * x + (2481 / 25000000) * x ^ 2 + (4420735921 / 2500000000000) * x ^ 3 + (2969469 / 50000000) * x ^ 4 + (-704121769783 / 1250000000000) * x ^ 5 + (801212587 / 300000000) * x ^ 6 + (-37356442760543 / 4375000000000) * x ^ 7 + (1778822351 / 100000000) * x ^ 8 + (-10177353929 / 450000000) * x ^ 9 + (8103323991 / 500000000) * x ^ 10 + (-141599537 / 27500000) * x ^ 11 := by
  have key : ∀ u v : ℝ, 0 ≤ u → 0 ≤ v → 0 ≤ (227986066576883446288204632364406341643 / 47293966097133727241104004170000000) * (u ^ 0 * v ^ 11) + (245887975873616259833845803701340313749 / 4299451463375793385554909470000000) * (u ^ 1 * v ^ 10) + (18983280879768128165465280420932417977 / 53743143292197417319436368375000) * (u ^ 2 * v ^ 9) + (306450249928544945712094006543672097557 / 214972573168789669277745473500000) * (u ^ 3 * v ^ 8) + (846504318235849775218343898702225348077 / 214972573168789669277745473500000) * (u ^ 4 * v ^ 7) + (288165436316951900499155835793367754709 / 38387959494426726656740263125000) * (u ^ 5 * v ^ 6) + (2266318937186221956753813547046471308597 / 230327756966560359940441578750000) * (u ^ 6 * v ^ 5) + (702267434050145536284217879881647115049 / 80614714938296125979154552562500) * (u ^ 7 * v ^ 4) + (804099106123359842842563489892324261657 / 161229429876592251958309105125000) * (u ^ 8 * v ^ 3) + (101177810454686232443542615944655787347 / 60461036203722094484365914421875) * (u ^ 9 * v ^ 2) + (305707500192511794790732585956012400159 / 1209220724074441889687318288437500) * (u ^ 10 * v ^ 1) + (3963234438824736519719185068397403503 / 3325356991204715196640125293203125) * (u ^ 11 * v ^ 0) := by
    intro u v hu hv; positivity
  have := key (x - (663 / 1250)) ((442 / 625) - x) (by linarith) (by linarith)
  calc (0 : ℝ) ≤ _ := this
    _ = _ := by ring

theorem as3Up_hi (x : ℝ) (h0 : 0 ≤ x) (h1 : x ≤ (442 / 625)) :
    0 ≤ (37 / 500000) + (-476836673 / 5000000000000) * x + (2481 / 25000000) * x ^ 2 + (4420735921 / 2500000000000) * x ^ 3 + (2969469 / 50000000) * x ^ 4 + (-704121769783 / 1250000000000) * x ^ 5 + (801212587 / 300000000) * x ^ 6 + (-37356442760543 / 4375000000000) * x ^ 7 + (1778822351 / 100000000) * x ^ 8 + (-10177353929 / 450000000) * x ^ 9 + (8103323991 / 500000000) * x ^ 10 + (-141599537 / 27500000) * x ^ 11 := by
  rcases le_total x ((221 / 625) : ℝ) with h | h
  · exact as3Up_hi_0 x (by linarith) h
  rcases le_total x ((663 / 1250) : ℝ) with h | h
  · exact as3Up_hi_1 x (by linarith) h
  exact as3Up_hi_2 x (by linarith) (by linarith)

private theorem as3Lo_hi_0 (x : ℝ) (h0 : 0 ≤ x) (h1 : x ≤ (221 / 625)) :
    0 ≤ (37 / 500000) + (476836673 / 5000000000000) * x + (-2481 / 25000000) * x ^ 2 + (-4420735921 / 2500000000000) * x ^ 3 + (-2969469 / 50000000) * x ^ 4 + (704121769783 / 1250000000000) * x ^ 5 + (-801212587 / 300000000) * x ^ 6 + (37356442760543 / 4375000000000) * x ^ 7 + (-1778822351 / 100000000) * x ^ 8 + (10177353929 / 450000000) * x ^ 9 + (-8103323991 / 500000000) * x ^ 10 + (141599537 / 27500000) * x ^ 11 := by
  have key : ∀ u v : ℝ, 0 ≤ u → 0 ≤ v → 0 ≤ (13460521586239337921142578125 / 1965463526114648404825101472) * (u ^ 0 * v ^ 11) + (19737563317514955997467041015625 / 251579331342674995817612988416) * (u ^ 1 * v ^ 10) + (51162329318411648273468017578125 / 125789665671337497908806494208) * (u ^ 2 * v ^ 9) + (315197542534576485881805419921875 / 251579331342674995817612988416) * (u ^ 3 * v ^ 8) + (77026333696140368137359619140625 / 31447416417834374477201623552) * (u ^ 4 * v ^ 7) + (403414062566585844443446826171875 / 125789665671337497908806494208) * (u ^ 5 * v ^ 6) + (536264078198005468118412060546875 / 188684498507006246863209741312) * (u ^ 6 * v ^ 5) + (4517278420827850820331808260210125 / 2641582979098087456084936378368) * (u ^ 7 * v ^ 4) + (468984425263765257657089449077625 / 660395744774521864021234094592) * (u ^ 8 * v ^ 3) + (3345603408952658580778065923393951 / 15849497874588524736509618270208) * (u ^ 9 * v ^ 2) + (1087393387230850759717836171043727611 / 24764840429044569900796278547200000) * (u ^ 10 * v ^ 1) + (64680531452166337396351095077727254603 / 13620662235974513445437953200960000000) * (u ^ 11 * v ^ 0) := by
    intro u v hu hv; positivity
  have := key (x - 0) ((221 / 625) - x) (by linarith) (by linarith)
  calc (0 : ℝ) ≤ _ := this
    _ = _ := by ring

private theorem as3Lo_hi_1 (x : ℝ) (h0 : (221 / 625) ≤ x) (h1 : x ≤ (663 / 1250)) :
    0 ≤ (37 / 500000) + (476836673 / 5000000000000) * x + (-2481 / 25000000) * x ^ 2 + (-4420735921 / 2500000000000) * x ^ 3 + (-2969469 / 50000000) * x ^ 4 + (704121769783 / 1250000000000) * x ^ 5 + (-801212587 / 300000000) * x ^ 6 + (37356442760543 / 4375000000000) * x ^ 7 + (-1778822351 / 100000000) * x ^ 8 + (10177353929 / 450000000) * x ^ 9 + (-8103323991 / 500000000) * x ^ 10 + (141599537 / 27500000) * x ^ 11 := by
  have key : ∀ u v : ℝ, 0 ≤ u → 0 ≤ v → 0 ≤ (64680531452166337396351095077727254603 / 6650713982409430393280250586406250) * (u ^ 0 * v ^ 11) + (139671924994956474203161476680995383259 / 1209220724074441889687318288437500) * (u ^ 1 * v ^ 10) + (154090910082563549488233142219728746251 / 241844144814888377937463657687500) * (u ^ 2 * v ^ 9) + (345122851336419769898590037766087416903 / 161229429876592251958309105125000) * (u ^ 3 * v ^ 8) + (778578735156236093370833415486385191409 / 161229429876592251958309105125000) * (u ^ 4 * v ^ 7) + (1755394258208225261832054314486743552577 / 230327756966560359940441578750000) * (u ^ 5 * v ^ 6) + (654484344245634452788379656062038038901 / 76775918988853453313480526250000) * (u ^ 6 * v ^ 5) + (1443290649272429012236564834458038318603 / 214972573168789669277745473500000) * (u ^ 7 * v ^ 4) + (97466395705162154713104703795270347137 / 26871571646098708659718184187500) * (u ^ 8 * v ^ 3) + (136818018831298793630366587326602150099 / 107486286584394834638872736750000) * (u ^ 9 * v ^ 2) + (1116584850259598512765249038972527630463 / 4299451463375793385554909470000000) * (u ^ 10 * v ^ 1) + (1098682940962865699219607867635593658357 / 47293966097133727241104004170000000) * (u ^ 11 * v ^ 0) := by
    intro u v hu hv; positivity
  have := key (x - (221 / 625)) ((663 / 1250) - x) (by linarith) (by linarith)
  calc (0 : ℝ) ≤ _ := this
    _ = _ := by ring

private theorem as3Lo_hi_2 (x : ℝ) (h0 : (663 / 1250) ≤ x) (h1 : x ≤ (1547 / 2500)) :
    0 ≤ (37 / 500000) + (476836673 / 5000000000000) * x + (-2481 / 25000000) * x ^ 2 + (-4420735921 / 2500000000000) * x ^ 3 + (-2969469 / 50000000) * x ^ 4 + (704121769783 / 1250000000000) * x ^ 5 + (-801212587 / 300000000) * x ^ 6 + (37356442760543 / 4375000000000) * x ^ 7 + (-1778822351 / 100000000) * x ^ 8 + (10177353929 / 450000000) * x ^ 9 + (-8103323991 / 500000000) * x ^ 10 + (141599537 / 27500000) * x ^ 11 := by
  have key : ∀ u v : ℝ, 0 ≤ u → 0 ≤ v → 0 ≤ (17578927055405851187513725882169498533712 / 369484110133857244071125032578125) * (u ^ 0 * v ^ 11) + (17435711781031988679148596511474026756864 / 33589464557623385824647730234375) * (u ^ 1 * v ^ 10) + (17132726071034362261711637093991977372908 / 6717892911524677164929546046875) * (u ^ 2 * v ^ 9) + (49967425503919985152285794925611523144828 / 6717892911524677164929546046875) * (u ^ 3 * v ^ 8) + (95964201845984547868040087590317913151282 / 6717892911524677164929546046875) * (u ^ 4 * v ^ 7) + (90847595393656411428293918510223036219154 / 4798494936803340832092532890625) * (u ^ 5 * v ^ 6) + (507533089143765893688026272203521516499353 / 28790969620820044992555197343750) * (u ^ 6 * v ^ 5) + (33106101333459456766083798448984348866844 / 2879096962082004499255519734375) * (u ^ 7 * v ^ 4) + (236429247108570415442118310699160423928119 / 46065551393312071988088315750000) * (u ^ 8 * v ^ 3) + (102782536648333388360131899751710587949259 / 69098327089968107982132473625000) * (u ^ 9 * v ^ 2) + (694053826689818427445733775629707724791409 / 2763933083598724319285298945000000) * (u ^ 10 * v ^ 1) + (568502369128489079057355431922600323069273 / 30403263919585967512138288395000000) * (u ^ 11 * v ^ 0) := by
    intro u v hu hv; positivity
  have := key (x - (663 / 1250)) ((1547 / 2500) - x) (by linarith) (by linarith)
  calc (0 : ℝ) ≤ _ := this
    _ = _ := by ring

private theorem as3Lo_hi_3 (x : ℝ) (h0 : (1547 / 2500) ≤ x) (h1 : x ≤ (442 / 625)) :
    0 ≤ (37 / 500000) + (476836673 / 5000000000000) * x + (-2481 / 25000000) * x ^ 2 + (-4420735921 / 2500000000000) * x ^ 3 + (-2969469 / 50000000) * x ^ 4 + (704121769783 / 1250000000000) * x ^ 5 + (-801212587 / 300000000) * x ^ 6 + (37356442760543 / 4375000000000) * x ^ 7 + (-1778822351 / 100000000) * x ^ 8 + (10177353929 / 450000000) * x ^ 9 + (-8103323991 / 500000000) * x ^ 10 + (141599537 / 27500000) * x ^ 11 := by
  have key : ∀ u v : ℝ, 0 ≤ u → 0 ≤ v → 0 ≤ (568502369128489079057355431922600323069273 / 30403263919585967512138288395000000) * (u ^ 0 * v ^ 11) + (442950911567159730668977088215492921347137 / 2763933083598724319285298945000000) * (u ^ 1 * v ^ 10) + (40006807867668714165942727898156887088191 / 69098327089968107982132473625000) * (u ^ 2 * v ^ 9) + (12951112714738280164243505819361025806827 / 11516387848328017997022078937500) * (u ^ 3 * v ^ 8) + (7138863978630967135401653183359778755013 / 5758193924164008998511039468750) * (u ^ 4 * v ^ 7) + (11766647564589929827324796034328215476752 / 14395484810410022496277598671875) * (u ^ 5 * v ^ 6) + (3083351765994605784303779729211401406196 / 4798494936803340832092532890625) * (u ^ 6 * v ^ 5) + (7332868591344277270849929888109862574624 / 6717892911524677164929546046875) * (u ^ 7 * v ^ 4) + (9298059735758646105551157132295287605728 / 6717892911524677164929546046875) * (u ^ 8 * v ^ 3) + (58947002050963241377507415876577591844096 / 60461036203722094484365914421875) * (u ^ 9 * v ^ 2) + (108720864971084327290505012485221884372224 / 302305181018610472421829572109375) * (u ^ 10 * v ^ 1) + (182923632955010816560740108979922117625856 / 3325356991204715196640125293203125) * (u ^ 11 * v ^ 0) := by
    intro u v hu hv; positivity
  have := key (x - (1547 / 2500)) ((442 / 625) - x) (by linarith) (by linarith)
  calc (0 : ℝ) ≤ _ := this
    _ = _ := by ring

theorem as3Lo_hi (x : ℝ) (h0 : 0 ≤ x) (h1 : x ≤ (442 / 625)) :
    0 ≤ (37 / 500000) + (476836673 / 5000000000000) * x + (-2481 / 25000000) * x ^ 2 + (-4420735921 / 2500000000000) * x ^ 3 + (-2969469 / 50000000) * x ^ 4 + (704121769783 / 1250000000000) * x ^ 5 + (-801212587 / 300000000) * x ^ 6 + (37356442760543 / 4375000000000) * x ^ 7 + (-1778822351 / 100000000) * x ^ 8 + (10177353929 / 450000000) * x ^ 9 + (-8103323991 / 500000000) * x ^ 10 + (141599537 / 27500000) * x ^ 11 := by
  rcases le_total x ((221 / 625) : ℝ) with h | h
  · exact as3Lo_hi_0 x (by linarith) h
  rcases le_total x ((663 / 1250) : ℝ) with h | h
  · exact as3Lo_hi_1 x (by linarith) h
  rcases le_total x ((1547 / 2500) : ℝ) with h | h
  · exact as3Lo_hi_2 x (by linarith) h
  exact as3Lo_hi_3 x (by linarith) (by linarith)

private theorem as7Up_lo_0 (x : ℝ) (h0 : 0 ≤ x) (h1 : x ≤ (442 / 625)) :
    0 ≤ (1 / 250000) + (-7030537261 / 5000000000000000) * x + (2481 / 25000000) * x ^ 2 + (-18405363892179 / 5000000000000000) * x ^ 3 + (2969469 / 50000000) * x ^ 4 + (-64478118568377 / 125000000000000) * x ^ 5 + (801212587 / 300000000) * x ^ 6 + (-75747965424823579 / 8750000000000000) * x ^ 7 + (1778822351 / 100000000) * x ^ 8 + (-1588118738197691 / 70312500000000) * x ^ 9 + (8103323991 / 500000000) * x ^ 10 + (-17143040897513517 / 3437500000000000) * x ^ 11 + (-7662727878597 / 39062500000000) * x ^ 13 + (17854313260043 / 78125000000000) * x ^ 15 := by
  have key : ∀ u v : ℝ, 0 ≤ u → 0 ≤ v → 0 ≤ (55511151231257827021181583404541015625 / 76816412875501667499497984598435588210688) * (u ^ 0 * v ^ 15) + (838520020491332616074942052364349365234375 / 78660006784513707519485936228798042327744512) * (u ^ 1 * v ^ 14) + (3238024924732899307855404913425445556640625 / 39330003392256853759742968114399021163872256) * (u ^ 2 * v ^ 13) + (1172689805023103299853391945362091064453125 / 6050769752654900578421995094522926332903424) * (u ^ 3 * v ^ 12) + (2241201710054954389785416424274444580078125 / 1512692438163725144605498773630731583225856) * (u ^ 4 * v ^ 11) + (12508390064422015382281381785869598388671875 / 6050769752654900578421995094522926332903424) * (u ^ 5 * v ^ 10) + (9446781204680832563648654520511627197265625 / 9076154628982350867632992641784389499355136) * (u ^ 6 * v ^ 9) + (216096626737203249651411090259781951904296875 / 42355388268584304048953965661660484330323968) * (u ^ 7 * v ^ 8) + (40799389447291130136052162956658477783203125 / 5294423533573038006119245707707560541290496) * (u ^ 8 * v ^ 7) + (117017649394030232992326486788089322791015625 / 54456927773894105205797955850706336996130816) * (u ^ 9 * v ^ 6) + (3670290610793495620450505805149866150390625 / 9076154628982350867632992641784389499355136) * (u ^ 10 * v ^ 5) + (324496680898151289359801694777833001409039847 / 199675401837611719087925838119256568985812992) * (u ^ 11 * v ^ 4) + (37189765560274978090923514575762700340400791 / 149756551378208789315944378589442426739359744) * (u ^ 12 * v ^ 3) + (55472249776432653931485980544414729892086054821957 / 1013976649956622010993373396699349764381081600000000) * (u ^ 13 * v ^ 2) + (35806156170913255896841712410514246408956169691199 / 3548918274848177038476806888447724175333785600000000) * (u ^ 14 * v ^ 1) + (5029950598288065797497704627636194464519612811557497799 / 8317777206675414933930016144799353535938560000000000000000) * (u ^ 15 * v ^ 0) := by
    intro u v hu hv; positivity
  have := key (x - 0) ((442 / 625) - x) (by linarith) (by linarith)
  calc (0 : ℝ) ≤ _ := this
    _ = _ := by ring

theorem as7Up_lo (x : ℝ) (h0 : 0 ≤ x) (h1 : x ≤ (442 / 625)) :
    0 ≤ (1 / 250000) + (-7030537261 / 5000000000000000) * x + (2481 / 25000000) * x ^ 2 + (-18405363892179 / 5000000000000000) * x ^ 3 + (2969469 / 50000000) * x ^ 4 + (-64478118568377 / 125000000000000) * x ^ 5 + (801212587 / 300000000) * x ^ 6 + (-75747965424823579 / 8750000000000000) * x ^ 7 + (1778822351 / 100000000) * x ^ 8 + (-1588118738197691 / 70312500000000) * x ^ 9 + (8103323991 / 500000000) * x ^ 10 + (-17143040897513517 / 3437500000000000) * x ^ 11 + (-7662727878597 / 39062500000000) * x ^ 13 + (17854313260043 / 78125000000000) * x ^ 15 := by
  exact as7Up_lo_0 x (by linarith) (by linarith)

private theorem as7Lo_lo_0 (x : ℝ) (h0 : 0 ≤ x) (h1 : x ≤ (442 / 625)) :
    0 ≤ (1 / 250000) + (7030537261 / 5000000000000000) * x + (-2481 / 25000000) * x ^ 2 + (18405363892179 / 5000000000000000) * x ^ 3 + (-2969469 / 50000000) * x ^ 4 + (64478118568377 / 125000000000000) * x ^ 5 + (-801212587 / 300000000) * x ^ 6 + (75747965424823579 / 8750000000000000) * x ^ 7 + (-1778822351 / 100000000) * x ^ 8 + (1588118738197691 / 70312500000000) * x ^ 9 + (-8103323991 / 500000000) * x ^ 10 + (17143040897513517 / 3437500000000000) * x ^ 11 + (7662727878597 / 39062500000000) * x ^ 13 + (-17854313260043 / 78125000000000) * x ^ 15 := by
  have key : ∀ u v : ℝ, 0 ≤ u → 0 ≤ v → 0 ≤ (55511151231257827021181583404541015625 / 76816412875501667499497984598435588210688) * (u ^ 0 * v ^ 15) + (866782545332907830015756189823150634765625 / 78660006784513707519485936228798042327744512) * (u ^ 1 * v ^ 14) + (2730534055651942253462038934230804443359375 / 39330003392256853759742968114399021163872256) * (u ^ 2 * v ^ 13) + (2806349515233457741024903953075408935546875 / 6050769752654900578421995094522926332903424) * (u ^ 3 * v ^ 12) + (743077780137466390873305499553680419921875 / 1512692438163725144605498773630731583225856) * (u ^ 4 * v ^ 11) + (13753269449271287487515371143817901611328125 / 6050769752654900578421995094522926332903424) * (u ^ 5 * v ^ 10) + (56207367579552424610843227803707122802734375 / 9076154628982350867632992641784389499355136) * (u ^ 6 * v ^ 9) + (177828265968196293395540203685530548095703125 / 42355388268584304048953965661660484330323968) * (u ^ 7 * v ^ 8) + (8441222140883812744816748786505584716796875 / 5294423533573038006119245707707560541290496) * (u ^ 8 * v ^ 7) + (276907243311369310054624807157223177208984375 / 54456927773894105205797955850706336996130816) * (u ^ 9 * v ^ 6) + (35722198659746458684244623589381383849609375 / 9076154628982350867632992641784389499355136) * (u ^ 10 * v ^ 5) + (69428211807248253687149599167479498590960153 / 199675401837611719087925838119256568985812992) * (u ^ 11 * v ^ 4) + (61291457616074907670814308910565424659599209 / 149756551378208789315944378589442426739359744) * (u ^ 12 * v ^ 3) + (98404661436614042571229368652972965420413945178043 / 1013976649956622010993373396699349764381081600000000) * (u ^ 13 * v ^ 2) + (41132299435610092354515962188179601247293830308801 / 3548918274848177038476806888447724175333785600000000) * (u ^ 14 * v ^ 1) + (6991683090231207366776932028409719231769449688442502201 / 8317777206675414933930016144799353535938560000000000000000) * (u ^ 15 * v ^ 0) := by
    intro u v hu hv; positivity
  have := key (x - 0) ((442 / 625) - x) (by linarith) (by linarith)
  calc (0 : ℝ) ≤ _ := this
    _ = _ := by ring

theorem as7Lo_lo (x : ℝ) (h0 : 0 ≤ x) (h1 : x ≤ (442 / 625)) :
    0 ≤ (1 / 250000) + (7030537261 / 5000000000000000) * x + (-2481 / 25000000) * x ^ 2 + (18405363892179 / 5000000000000000) * x ^ 3 + (-2969469 / 50000000) * x ^ 4 + (64478118568377 / 125000000000000) * x ^ 5 + (-801212587 / 300000000) * x ^ 6 + (75747965424823579 / 8750000000000000) * x ^ 7 + (-1778822351 / 100000000) * x ^ 8 + (1588118738197691 / 70312500000000) * x ^ 9 + (-8103323991 / 500000000) * x ^ 10 + (17143040897513517 / 3437500000000000) * x ^ 11 + (7662727878597 / 39062500000000) * x ^ 13 + (-17854313260043 / 78125000000000) * x ^ 15 := by
  exact as7Lo_lo_0 x (by linarith) (by linarith)

private theorem as7Up_hi_0 (x : ℝ) (h0 : 0 ≤ x) (h1 : x ≤ (442 / 625)) :
    0 ≤ (1 / 250000) + (20265221 / 2500000000000000) * x + (2481 / 25000000) * x ^ 2 + (-9202092677381 / 2500000000000000) * x ^ 3 + (2969469 / 50000000) * x ^ 4 + (-32239052667903 / 62500000000000) * x ^ 5 + (801212587 / 300000000) * x ^ 6 + (-37873982422841981 / 4375000000000000) * x ^ 7 + (1778822351 / 100000000) * x ^ 8 + (-198514842089731 / 8789062500000) * x ^ 9 + (8103323991 / 500000000) * x ^ 10 + (-8571520251862363 / 1718750000000000) * x ^ 11 + (-3831366648483 / 19531250000000) * x ^ 13 + (8927162942477 / 39062500000000) * x ^ 15 := by
  have key : ∀ u v : ℝ, 0 ≤ u → 0 ≤ v → 0 ≤ (55511151231257827021181583404541015625 / 76816412875501667499497984598435588210688) * (u ^ 0 * v ^ 15) + (426366374211656875559128820896148681640625 / 39330003392256853759742968114399021163872256) * (u ^ 1 * v ^ 14) + (1668757010128383626579307019710540771484375 / 19665001696128426879871484057199510581936128) * (u ^ 2 * v ^ 13) + (636135016910634835879318416118621826171875 / 3025384876327450289210997547261463166451712) * (u ^ 3 * v ^ 12) + (1170482102700858807447366416454315185546875 / 756346219081862572302749386815365791612928) * (u ^ 4 * v ^ 11) + (6804402690749813733172374069690704345703125 / 3025384876327450289210997547261463166451712) * (u ^ 5 * v ^ 10) + (6380151195328741743615971505641937255859375 / 4538077314491175433816496320892194749677568) * (u ^ 6 * v ^ 9) + (119700438761121226186927264223170928955078125 / 21177694134292152024476982830830242165161984) * (u ^ 7 * v ^ 8) + (22073939568930924924469428820300750732421875 / 2647211766786519003059622853853780270645248) * (u ^ 8 * v ^ 7) + (73682042993516181186803414327619890412109375 / 27228463886947052602898977925353168498065408) * (u ^ 9 * v ^ 6) + (3534990839346175835973930345050918927734375 / 4538077314491175433816496320892194749677568) * (u ^ 10 * v ^ 5) + (181128562416800096335306451185362892534937233 / 99837700918805859543962919059628284492906496) * (u ^ 11 * v ^ 4) + (23802926628028117688821734422875997897780449 / 74878275689104394657972189294721213369679872) * (u ^ 12 * v ^ 3) + (36670929480313587239914948655063813024087641455523 / 506988324978311005496686698349674882190540800000000) * (u ^ 13 * v ^ 2) + (22791563344061867056226343294970374567674891751161 / 1774459137424088519238403444223862087666892800000000) * (u ^ 14 * v ^ 1) + (3349657739228882974793374430497234544592184153805168561 / 4158888603337707466965008072399676767969280000000000000000) * (u ^ 15 * v ^ 0) := by
    intro u v hu hv; positivity
  have := key (x - 0) ((442 / 625) - x) (by linarith) (by linarith)
  calc (0 : ℝ) ≤ _ := this
    _ = _ := by ring

theorem as7Up_hi (x : ℝ) (h0 : 0 ≤ x) (h1 : x ≤ (442 / 625)) :
    0 ≤ (1 / 250000) + (20265221 / 2500000000000000) * x + (2481 / 25000000) * x ^ 2 + (-9202092677381 / 2500000000000000) * x ^ 3 + (2969469 / 50000000) * x ^ 4 + (-32239052667903 / 62500000000000) * x ^ 5 + (801212587 / 300000000) * x ^ 6 + (-37873982422841981 / 4375000000000000) * x ^ 7 + (1778822351 / 100000000) * x ^ 8 + (-198514842089731 / 8789062500000) * x ^ 9 + (8103323991 / 500000000) * x ^ 10 + (-8571520251862363 / 1718750000000000) * x ^ 11 + (-3831366648483 / 19531250000000) * x ^ 13 + (8927162942477 / 39062500000000) * x ^ 15 := by
  exact as7Up_hi_0 x (by linarith) (by linarith)

private theorem as7Lo_hi_0 (x : ℝ) (h0 : 0 ≤ x) (h1 : x ≤ (442 / 625)) :
    0 ≤ (1 / 250000) + (-20265221 / 2500000000000000) * x + (-2481 / 25000000) * x ^ 2 + (9202092677381 / 2500000000000000) * x ^ 3 + (-2969469 / 50000000) * x ^ 4 + (32239052667903 / 62500000000000) * x ^ 5 + (-801212587 / 300000000) * x ^ 6 + (37873982422841981 / 4375000000000000) * x ^ 7 + (-1778822351 / 100000000) * x ^ 8 + (198514842089731 / 8789062500000) * x ^ 9 + (-8103323991 / 500000000) * x ^ 10 + (8571520251862363 / 1718750000000000) * x ^ 11 + (3831366648483 / 19531250000000) * x ^ 13 + (-8927162942477 / 39062500000000) * x ^ 15 := by
  have key : ∀ u v : ℝ, 0 ≤ u → 0 ≤ v → 0 ≤ (55511151231257827021181583404541015625 / 76816412875501667499497984598435588210688) * (u ^ 0 * v ^ 15) + (426284908700463347486220300197601318359375 / 39330003392256853759742968114399021163872256) * (u ^ 1 * v ^ 14) + (1315522480064037154079414904117584228515625 / 19665001696128426879871484057199510581936128) * (u ^ 2 * v ^ 13) + (1353384643217645684559829533100128173828125 / 3025384876327450289210997547261463166451712) * (u ^ 3 * v ^ 12) + (321657642395351582881994545459747314453125 / 756346219081862572302749386815365791612928) * (u ^ 4 * v ^ 11) + (6326427066096837701726002395153045654296875 / 3025384876327450289210997547261463166451712) * (u ^ 5 * v ^ 10) + (26446923196787886843629969656467437744140625 / 4538077314491175433816496320892194749677568) * (u ^ 6 * v ^ 9) + (77262007591578545336548382749485321044921875 / 21177694134292152024476982830830242165161984) * (u ^ 7 * v ^ 8) + (2546366225156546515965027051281280517578125 / 2647211766786519003059622853853780270645248) * (u ^ 8 * v ^ 7) + (123280403359183590336672232645036359587890625 / 27228463886947052602898977925353168498065408) * (u ^ 9 * v ^ 6) + (16161253795923801316373634352214706072265625 / 4538077314491175433816496320892194749677568) * (u ^ 10 * v ^ 5) + (15833883935899675188169195787293357465062767 / 99837700918805859543962919059628284492906496) * (u ^ 11 * v ^ 4) + (25437684960146825192047177320288064602219551 / 74878275689104394657972189294721213369679872) * (u ^ 12 * v ^ 3) + (40267526126209761011442725943630034632162358544477 / 506988324978311005496686698349674882190540800000000) * (u ^ 13 * v ^ 2) + (15677664459199807069452494004376549260450108248839 / 1774459137424088519238403444223862087666892800000000) * (u ^ 14 * v ^ 1) + (2661159105030753607343943897525722303552347096194831439 / 4158888603337707466965008072399676767969280000000000000000) * (u ^ 15 * v ^ 0) := by
    intro u v hu hv; positivity
  have := key (x - 0) ((442 / 625) - x) (by linarith) (by linarith)
  calc (0 : ℝ) ≤ _ := this
    _ = _ := by ring

theorem as7Lo_hi (x : ℝ) (h0 : 0 ≤ x) (h1 : x ≤ (442 / 625)) :
    0 ≤ (1 / 250000) + (-20265221 / 2500000000000000) * x + (-2481 / 25000000) * x ^ 2 + (9202092677381 / 2500000000000000) * x ^ 3 + (-2969469 / 50000000) * x ^ 4 + (32239052667903 / 62500000000000) * x ^ 5 + (-801212587 / 300000000) * x ^ 6 + (37873982422841981 / 4375000000000000) * x ^ 7 + (-1778822351 / 100000000) * x ^ 8 + (198514842089731 / 8789062500000) * x ^ 9 + (-8103323991 / 500000000) * x ^ 10 + (8571520251862363 / 1718750000000000) * x ^ 11 + (3831366648483 / 19531250000000) * x ^ 13 + (-8927162942477 / 39062500000000) * x ^ 15 := by
  exact as7Lo_hi_0 x (by linarith) (by linarith)

/-- a polynomial close to the logarithm of `1 + x` on `[0, 1]` -/
noncomputable def lnP (x : ℝ) : ℝ :=
  (499999871 / 500000000) * x + (-999957999 / 2000000000) * x ^ 2 + (66589657 / 200000000) * x ^ 3 + (-39496663 / 160000000) * x ^ 4 + (185728513 / 1000000000) * x ^ 5 + (-126475163 / 1000000000) * x ^ 6 + (2353599 / 35000000) * x ^ 7 + (-185754899 / 8000000000) * x ^ 8 + (16886809 / 4500000000) * x ^ 9

/-- the derivative of `lnP` -/
noncomputable def lnP' (x : ℝ) : ℝ :=
  (499999871 / 500000000) + (-999957999 / 1000000000) * x + (199768971 / 200000000) * x ^ 2 + (-39496663 / 40000000) * x ^ 3 + (185728513 / 200000000) * x ^ 4 + (-379425489 / 500000000) * x ^ 5 + (2353599 / 5000000) * x ^ 6 + (-185754899 / 1000000000) * x ^ 7 + (16886809 / 500000000) * x ^ 8

/-- a polynomial close to the arc sine on `[0, 0.7072]` -/
noncomputable def asP (x : ℝ) : ℝ :=
  (100000029 / 100000000) * x + (-2481 / 50000000) * x ^ 2 + (16851083 / 100000000) * x ^ 3 + (-2969469 / 100000000) * x ^ 4 + (33276717 / 100000000) * x ^ 5 + (-801212587 / 600000000) * x ^ 6 + (382834961 / 87500000) * x ^ 7 + (-1778822351 / 200000000) * x ^ 8 + (10177353929 / 900000000) * x ^ 9 + (-8103323991 / 1000000000) * x ^ 10 + (141599537 / 55000000) * x ^ 11

/-- the derivative of `asP` -/
noncomputable def asP' (x : ℝ) : ℝ :=
  (100000029 / 100000000) + (-2481 / 25000000) * x + (50553249 / 100000000) * x ^ 2 + (-2969469 / 25000000) * x ^ 3 + (33276717 / 20000000) * x ^ 4 + (-801212587 / 100000000) * x ^ 5 + (382834961 / 12500000) * x ^ 6 + (-1778822351 / 25000000) * x ^ 7 + (10177353929 / 100000000) * x ^ 8 + (-8103323991 / 100000000) * x ^ 9 + (141599537 / 5000000) * x ^ 10

end Verif.ExpoCert
