import Mathlib.Data.Real.Basic
import Mathlib.Tactic.Ring
import Mathlib.Tactic.Linarith
import Mathlib.Tactic.Positivity

/-!
# Polynomial inequalities used for the error bounds of the approximations of SimdFallbackTrig.h

Generated.  Every theorem states that one polynomial is not negative on one interval; it is proved by
splitting the interval and writing the polynomial, on each part `[a, b]`, as a combination of the
products `(x - a) ^ i * (b - x) ^ (n - i)` with coefficients that are not negative.  Nothing here
models code (the models are in `Trig.lean`); the polynomials are the differences between the code's
approximations and the Taylor polynomials of the cosine, or a polynomial close to the arc tangent.
-/

namespace Verif.TrigCert

private theorem bhUp_lo_0 (x : ℝ) (h0 : 0 ≤ x) (h1 : x ≤ (987 / 800)) :
    0 ≤ (2621612578217 / 156250000000000) + (2090620399 / 31250000000) * x + (-33287495399 / 375000000000) * x ^ 2 + (314537495399 / 11250000000000) * x ^ 3 + (-720787495399 / 630000000000000) * x ^ 4 + (1252037495399 / 56700000000000000) * x ^ 5 + (-1 / 3628800) * x ^ 6 := by
  have key : ∀ u v : ℝ, 0 ≤ u → 0 ≤ v → 0 ≤ (2748960030816468992 / 577807178870043005625) * (u ^ 0 * v ^ 6) + (41175220663615488 / 792602440150950625) * (u ^ 1 * v ^ 5) + (28904001927348963328 / 192602392956681001875) * (u ^ 2 * v ^ 4) + (13782787360744040125856 / 72225897358755375703125) * (u ^ 3 * v ^ 3) + (63901402476040662634261 / 535006647101891671875000) * (u ^ 4 * v ^ 2) + (455746185323561916801603331 / 12840159530445400125000000000) * (u ^ 5 * v ^ 1) + (462594674826448613803185229 / 115561435774008601125000000000) * (u ^ 6 * v ^ 0) := by
    intro u v hu hv; positivity
  have := key (x - 0) ((987 / 800) - x) (by linarith) (by linarith)
  calc (0 : ℝ) ≤ _ := this
    _ = _ := by ring

private theorem bhUp_lo_1 (x : ℝ) (h0 : (987 / 800) ≤ x) (h1 : x ≤ (2961 / 1600)) :
    0 ≤ (2621612578217 / 156250000000000) + (2090620399 / 31250000000) * x + (-33287495399 / 375000000000) * x ^ 2 + (314537495399 / 11250000000000) * x ^ 3 + (-720787495399 / 630000000000000) * x ^ 4 + (1252037495399 / 56700000000000000) * x ^ 5 + (-1 / 3628800) * x ^ 6 := by
  have key : ∀ u v : ℝ, 0 ≤ u → 0 ≤ v → 0 ≤ (462594674826448613803185229 / 1805647433968884392578125000) * (u ^ 0 * v ^ 6) + (469443164329335310804767127 / 401254985326418753906250000) * (u ^ 1 * v ^ 5) + (54545366732275878608199749 / 26750332355094583593750000) * (u ^ 2 * v ^ 4) + (484533794698080643821124751 / 288903589435021502812500000) * (u ^ 3 * v ^ 3) + (1253701414674206472897857527 / 1926023929566810018750000000) * (u ^ 4 * v ^ 2) + (732750348357118500962370043 / 6420079765222700062500000000) * (u ^ 5 * v ^ 1) + (434623819524577186966700761 / 28890358943502150281250000000) * (u ^ 6 * v ^ 0) := by
    intro u v hu hv; positivity
  have := key (x - (987 / 800)) ((2961 / 1600) - x) (by linarith) (by linarith)
  calc (0 : ℝ) ≤ _ := this
    _ = _ := by ring

private theorem bhUp_lo_2 (x : ℝ) (h0 : (2961 / 1600) ≤ x) (h1 : x ≤ (987 / 400)) :
    0 ≤ (2621612578217 / 156250000000000) + (2090620399 / 31250000000) * x + (-33287495399 / 375000000000) * x ^ 2 + (314537495399 / 11250000000000) * x ^ 3 + (-720787495399 / 630000000000000) * x ^ 4 + (1252037495399 / 56700000000000000) * x ^ 5 + (-1 / 3628800) * x ^ 6 := by
  have key : ∀ u v : ℝ, 0 ≤ u → 0 ≤ v → 0 ≤ (434623819524577186966700761 / 28890358943502150281250000000) * (u ^ 0 * v ^ 6) + (1278739511125261992846495959 / 19260239295668100187500000000) * (u ^ 1 * v ^ 5) + (396972823850579858938775221 / 963011964783405009375000000) * (u ^ 2 * v ^ 4) + (495444233884346651338449277 / 361129486793776878515625000) * (u ^ 3 * v ^ 3) + (12508504127512449452700949 / 6018824779896281308593750) * (u ^ 4 * v ^ 2) + (36310633505033113859596289 / 25078436582901172119140625) * (u ^ 5 * v ^ 1) + (85928605208778147798913916 / 225705929246110549072265625) * (u ^ 6 * v ^ 0) := by
    intro u v hu hv; positivity
  have := key (x - (2961 / 1600)) ((987 / 400) - x) (by linarith) (by linarith)
  calc (0 : ℝ) ≤ _ := this
    _ = _ := by ring

theorem bhUp_lo (x : ℝ) (h0 : 0 ≤ x) (h1 : x ≤ (987 / 400)) :
    0 ≤ (2621612578217 / 156250000000000) + (2090620399 / 31250000000) * x + (-33287495399 / 375000000000) * x ^ 2 + (314537495399 / 11250000000000) * x ^ 3 + (-720787495399 / 630000000000000) * x ^ 4 + (1252037495399 / 56700000000000000) * x ^ 5 + (-1 / 3628800) * x ^ 6 := by
  rcases le_total x ((987 / 800) : ℝ) with h | h
  · exact bhUp_lo_0 x (by linarith) h
  rcases le_total x ((2961 / 1600) : ℝ) with h | h
  · exact bhUp_lo_1 x (by linarith) h
  exact bhUp_lo_2 x (by linarith) (by linarith)

private theorem bhLo_lo_0 (x : ℝ) (h0 : 0 ≤ x) (h1 : x ≤ (987 / 800)) :
    0 ≤ (2621612578217 / 156250000000000) + (-1984370399 / 31250000000) * x + (33287495399 / 375000000000) * x ^ 2 + (-314537495399 / 11250000000000) * x ^ 3 + (720787495399 / 630000000000000) * x ^ 4 + (-1252037495399 / 56700000000000000) * x ^ 5 + (1908287495399 / 7484400000000000000) * x ^ 6 + (-1 / 479001600) * x ^ 7 := by
  have key : ∀ u v : ℝ, 0 ≤ u → 0 ≤ v → 0 ≤ (87966720986127007744 / 22811827421789297862075) * (u ^ 0 * v ^ 7) + (29289199436975570944 / 3258832488827042551725) * (u ^ 1 * v ^ 6) + (482740603338686464 / 120697499586186761175) * (u ^ 2 * v ^ 5) + (3292522908087781970944 / 407354061103380318965625) * (u ^ 3 * v ^ 4) + (384239219958237039830716 / 10183851527584507974140625) * (u ^ 4 * v ^ 3) + (345173770291499959646914001 / 6789234351723005316093750000) * (u ^ 5 * v ^ 2) + (2842936455513512212295212039459 / 102420449648849908768500000000000) * (u ^ 6 * v ^ 1) + (27260295982077707455674750975541 / 5018602032793645529656500000000000) * (u ^ 7 * v ^ 0) := by
    intro u v hu hv; positivity
  have := key (x - 0) ((987 / 800) - x) (by linarith) (by linarith)
  calc (0 : ℝ) ≤ _ := this
    _ = _ := by ring

private theorem bhLo_lo_1 (x : ℝ) (h0 : (987 / 800) ≤ x) (h1 : x ≤ (987 / 400)) :
    0 ≤ (2621612578217 / 156250000000000) + (-1984370399 / 31250000000) * x + (33287495399 / 375000000000) * x ^ 2 + (-314537495399 / 11250000000000) * x ^ 3 + (720787495399 / 630000000000000) * x ^ 4 + (-1252037495399 / 56700000000000000) * x ^ 5 + (1908287495399 / 7484400000000000000) * x ^ 6 + (-1 / 479001600) * x ^ 7 := by
  have key : ∀ u v : ℝ, 0 ≤ u → 0 ≤ v → 0 ≤ (27260295982077707455674750975541 / 5018602032793645529656500000000000) * (u ^ 0 * v ^ 7) + (34620036775560829425283017674869 / 716943147541949361379500000000000) * (u ^ 1 * v ^ 6) + (324914686626510050453159684629 / 1867039446723826461925781250000) * (u ^ 2 * v ^ 5) + (11691579415509861942302988055243 / 35847157377097468068975000000000) * (u ^ 3 * v ^ 4) + (610350414350335359170273807183 / 1792357868854873403448750000000) * (u ^ 4 * v ^ 3) + (2907794940072686160520421546017 / 14936315573790611695406250000000) * (u ^ 5 * v ^ 2) + (6166778428429449944880235499 / 114308537554519987464843750000) * (u ^ 6 * v ^ 1) + (34343590901846257884825053381 / 7128696069309155581898437500000) * (u ^ 7 * v ^ 0) := by
    intro u v hu hv; positivity
  have := key (x - (987 / 800)) ((987 / 400) - x) (by linarith) (by linarith)
  calc (0 : ℝ) ≤ _ := this
    _ = _ := by ring

theorem bhLo_lo (x : ℝ) (h0 : 0 ≤ x) (h1 : x ≤ (987 / 400)) :
    0 ≤ (2621612578217 / 156250000000000) + (-1984370399 / 31250000000) * x + (33287495399 / 375000000000) * x ^ 2 + (-314537495399 / 11250000000000) * x ^ 3 + (720787495399 / 630000000000000) * x ^ 4 + (-1252037495399 / 56700000000000000) * x ^ 5 + (1908287495399 / 7484400000000000000) * x ^ 6 + (-1 / 479001600) * x ^ 7 := by
  rcases le_total x ((987 / 800) : ℝ) with h | h
  · exact bhLo_lo_0 x (by linarith) h
  exact bhLo_lo_1 x (by linarith) (by linarith)

private theorem bhUp_hi_0 (x : ℝ) (h0 : 0 ≤ x) (h1 : x ≤ (987 / 800)) :
    0 ≤ (167783311820033 / 10000000000000000) + (133793422351 / 2000000000000) * x + (-2130393422351 / 24000000000000) * x ^ 2 + (20130393422351 / 720000000000000) * x ^ 3 + (-6590056203193 / 5760000000000000) * x ^ 4 + (80130393422351 / 3628800000000000000) * x ^ 5 + (-1 / 3628800) * x ^ 6 := by
  have key : ∀ u v : ℝ, 0 ≤ u → 0 ≤ v → 0 ≤ (56101260833865728 / 11791983242245775625) * (u ^ 0 * v ^ 6) + (476446211588337664 / 9171542521746714375) * (u ^ 1 * v ^ 5) + (4128996292965732064 / 27514627565240143125) * (u ^ 2 * v ^ 4) + (3937722929279345169331 / 20635970673930107343750) * (u ^ 3 * v ^ 3) + (1752573316209196471421281 / 14674468034794743000000000) * (u ^ 4 * v ^ 2) + (4166230733228996905794645917 / 117395744278357944000000000000) * (u ^ 5 * v ^ 1) + (4228393605399261834716781253 / 1056561698505221496000000000000) * (u ^ 6 * v ^ 0) := by
    intro u v hu hv; positivity
  have := key (x - 0) ((987 / 800) - x) (by linarith) (by linarith)
  calc (0 : ℝ) ≤ _ := this
    _ = _ := by ring

private theorem bhUp_hi_1 (x : ℝ) (h0 : (987 / 800) ≤ x) (h1 : x ≤ (2961 / 1600)) :
    0 ≤ (167783311820033 / 10000000000000000) + (133793422351 / 2000000000000) * x + (-2130393422351 / 24000000000000) * x ^ 2 + (20130393422351 / 720000000000000) * x ^ 3 + (-6590056203193 / 5760000000000000) * x ^ 4 + (80130393422351 / 3628800000000000000) * x ^ 5 + (-1 / 3628800) * x ^ 6 := by
  have key : ∀ u v : ℝ, 0 ≤ u → 0 ≤ v → 0 ≤ (4228393605399261834716781253 / 16508776539144085875000000000) * (u ^ 0 * v ^ 6) + (476728497507725195959879621 / 407624112077631750000000000) * (u ^ 1 * v ^ 5) + (53403677186526948947150993 / 26204407204990612500000000) * (u ^ 2 * v ^ 4) + (4425951684515143513832765357 / 2641404246263053740000000000) * (u ^ 3 * v ^ 3) + (11440888938197225747714358139 / 17609361641753691600000000000) * (u ^ 4 * v ^ 2) + (6669213975967022415232150601 / 58697872139178972000000000000) * (u ^ 5 * v ^ 1) + (7899854277627288825089652479 / 528280849252610748000000000000) * (u ^ 6 * v ^ 0) := by
    intro u v hu hv; positivity
  have := key (x - (987 / 800)) ((2961 / 1600) - x) (by linarith) (by linarith)
  calc (0 : ℝ) ≤ _ := this
    _ = _ := by ring

private theorem bhUp_hi_2 (x : ℝ) (h0 : (2961 / 1600) ≤ x) (h1 : x ≤ (987 / 400)) :
    0 ≤ (167783311820033 / 10000000000000000) + (133793422351 / 2000000000000) * x + (-2130393422351 / 24000000000000) * x ^ 2 + (20130393422351 / 720000000000000) * x ^ 3 + (-6590056203193 / 5760000000000000) * x ^ 4 + (80130393422351 / 3628800000000000000) * x ^ 5 + (-1 / 3628800) * x ^ 6 := by
  have key : ∀ u v : ℝ, 0 ≤ u → 0 ≤ v → 0 ≤ (7899854277627288825089652479 / 528280849252610748000000000000) * (u ^ 0 * v ^ 6) + (11591775182608088054662158113 / 176093616417536916000000000000) * (u ^ 1 * v ^ 5) + (3616477782775368076098605647 / 8804680820876845800000000000) * (u ^ 2 * v ^ 4) + (646145233336199660013984877 / 471679329689831025000000000) * (u ^ 3 * v ^ 3) + (114275740635261124123328293 / 55029255130480286250000000) * (u ^ 4 * v ^ 2) + (110610487846165640797376141 / 76429521014555953125000000) * (u ^ 5 * v ^ 1) + (196349513627313085811065253 / 515899266848252683593750000) * (u ^ 6 * v ^ 0) := by
    intro u v hu hv; positivity
  have := key (x - (2961 / 1600)) ((987 / 400) - x) (by linarith) (by linarith)
  calc (0 : ℝ) ≤ _ := this
    _ = _ := by ring

theorem bhUp_hi (x : ℝ) (h0 : 0 ≤ x) (h1 : x ≤ (987 / 400)) :
    0 ≤ (167783311820033 / 10000000000000000) + (133793422351 / 2000000000000) * x + (-2130393422351 / 24000000000000) * x ^ 2 + (20130393422351 / 720000000000000) * x ^ 3 + (-6590056203193 / 5760000000000000) * x ^ 4 + (80130393422351 / 3628800000000000000) * x ^ 5 + (-1 / 3628800) * x ^ 6 := by
  rcases le_total x ((987 / 800) : ℝ) with h | h
  · exact bhUp_hi_0 x (by linarith) h
  rcases le_total x ((2961 / 1600) : ℝ) with h | h
  · exact bhUp_hi_1 x (by linarith) h
  exact bhUp_hi_2 x (by linarith) (by linarith)

private theorem bhLo_hi_0 (x : ℝ) (h0 : 0 ≤ x) (h1 : x ≤ (987 / 800)) :
    0 ≤ (167783311820033 / 10000000000000000) + (-126993422351 / 2000000000000) * x + (2130393422351 / 24000000000000) * x ^ 2 + (-20130393422351 / 720000000000000) * x ^ 3 + (6590056203193 / 5760000000000000) * x ^ 4 + (-80130393422351 / 3628800000000000000) * x ^ 5 + (122130393422351 / 479001600000000000000) * x ^ 6 + (-1 / 479001600) * x ^ 7 := by
  have key : ∀ u v : ℝ, 0 ≤ u → 0 ≤ v → 0 ≤ (1795240346683703296 / 465547498403863221675) * (u ^ 0 * v ^ 7) + (29292158450775752704 / 3258832488827042551725) * (u ^ 1 * v ^ 6) + (483380885291009024 / 120697499586186761175) * (u ^ 2 * v ^ 5) + (3297816050318519402704 / 407354061103380318965625) * (u ^ 3 * v ^ 4) + (6150597740480153425490071 / 162941624441352127586250000) * (u ^ 4 * v ^ 3) + (22096561481293463171705318249 / 434510998510272340230000000000) * (u ^ 5 * v ^ 2) + (1273861235031456582523912497693037 / 45884361442684759128288000000000000) * (u ^ 6 * v ^ 1) + (249273945560986901791075074198637 / 45884361442684759128288000000000000) * (u ^ 7 * v ^ 0) := by
    intro u v hu hv; positivity
  have := key (x - 0) ((987 / 800) - x) (by linarith) (by linarith)
  calc (0 : ℝ) ≤ _ := this
    _ = _ := by ring

private theorem bhLo_hi_1 (x : ℝ) (h0 : (987 / 800) ≤ x) (h1 : x ≤ (987 / 400)) :
    0 ≤ (167783311820033 / 10000000000000000) + (-126993422351 / 2000000000000) * x + (2130393422351 / 24000000000000) * x ^ 2 + (-20130393422351 / 720000000000000) * x ^ 3 + (6590056203193 / 5760000000000000) * x ^ 4 + (-80130393422351 / 3628800000000000000) * x ^ 5 + (122130393422351 / 479001600000000000000) * x ^ 6 + (-1 / 479001600) * x ^ 7 := by
  have key : ∀ u v : ℝ, 0 ≤ u → 0 ≤ v → 0 ≤ (249273945560986901791075074198637 / 45884361442684759128288000000000000) * (u ^ 0 * v ^ 7) + (2215974002822360042551138541087881 / 45884361442684759128288000000000000) * (u ^ 1 * v ^ 6) + (332753062465417102962309911144311 / 1911848393445198297012000000000000) * (u ^ 2 * v ^ 5) + (748349562785781172738454149569007 / 2294218072134237956414400000000000) * (u ^ 3 * v ^ 4) + (39067217540643471562589632038317 / 114710903606711897820720000000000) * (u ^ 4 * v ^ 3) + (186124594921557590086614885339733 / 955924196722599148506000000000000) * (u ^ 5 * v ^ 2) + (9671221877763380572909129594837 / 179235786885487340344875000000000) * (u ^ 6 * v ^ 1) + (3455021111428082263529775851437 / 716943147541949361379500000000000) * (u ^ 7 * v ^ 0) := by
    intro u v hu hv; positivity
  have := key (x - (987 / 800)) ((987 / 400) - x) (by linarith) (by linarith)
  calc (0 : ℝ) ≤ _ := this
    _ = _ := by ring

theorem bhLo_hi (x : ℝ) (h0 : 0 ≤ x) (h1 : x ≤ (987 / 400)) :
    0 ≤ (167783311820033 / 10000000000000000) + (-126993422351 / 2000000000000) * x + (2130393422351 / 24000000000000) * x ^ 2 + (-20130393422351 / 720000000000000) * x ^ 3 + (6590056203193 / 5760000000000000) * x ^ 4 + (-80130393422351 / 3628800000000000000) * x ^ 5 + (122130393422351 / 479001600000000000000) * x ^ 6 + (-1 / 479001600) * x ^ 7 := by
  rcases le_total x ((987 / 800) : ℝ) with h | h
  · exact bhLo_hi_0 x (by linarith) h
  exact bhLo_hi_1 x (by linarith) (by linarith)

private theorem c1Up_0 (x : ℝ) (h0 : 0 ≤ x) (h1 : x ≤ (987 / 3200)) :
    0 ≤ (119677 / 100000000) + (-88383 / 20000000) * x + (14624951 / 3000000000) * x ^ 2 + (-1 / 720) * x ^ 3 + (1 / 40320) * x ^ 4 + (-1 / 3628800) * x ^ 5 := by
  have key : ∀ u v : ℝ, 0 ≤ u → 0 ≤ v → 0 ≤ (401569375846400 / 936668172433707) * (u ^ 0 * v ^ 5) + (1550489375211520 / 936668172433707) * (u ^ 1 * v ^ 4) + (292735109216555008 / 117083521554213375) * (u ^ 2 * v ^ 3) + (215590674177025024 / 117083521554213375) * (u ^ 3 * v ^ 2) + (77249263140674399 / 117083521554213375) * (u ^ 4 * v ^ 1) + (2759338494588054943 / 29973381517878624000) * (u ^ 5 * v ^ 0) := by
    intro u v hu hv; positivity
  have := key (x - 0) ((987 / 3200) - x) (by linarith) (by linarith)
  calc (0 : ℝ) ≤ _ := this
    _ = _ := by ring

private theorem c1Up_1 (x : ℝ) (h0 : (987 / 3200) ≤ x) (h1 : x ≤ (987 / 1600)) :
    0 ≤ (119677 / 100000000) + (-88383 / 20000000) * x + (14624951 / 3000000000) * x ^ 2 + (-1 / 720) * x ^ 3 + (1 / 40320) * x ^ 4 + (-1 / 3628800) * x ^ 5 := by
  have key : ∀ u v : ℝ, 0 ≤ u → 0 ≤ v → 0 ≤ (2759338494588054943 / 29973381517878624000) * (u ^ 0 * v ^ 5) + (3908786790933951643 / 14986690758939312000) * (u ^ 1 * v ^ 4) + (919782682592429339 / 3746672689734828000) * (u ^ 2 * v ^ 3) + (5836736018033107 / 74933453794696560) * (u ^ 3 * v ^ 2) + (4410947467306523 / 1873336344867414000) * (u ^ 4 * v ^ 1) + (1121839558213151 / 936668172433707000) * (u ^ 5 * v ^ 0) := by
    intro u v hu hv; positivity
  have := key (x - (987 / 3200)) ((987 / 1600) - x) (by linarith) (by linarith)
  calc (0 : ℝ) ≤ _ := this
    _ = _ := by ring

private theorem c1Up_2 (x : ℝ) (h0 : (987 / 1600) ≤ x) (h1 : x ≤ (987 / 800)) :
    0 ≤ (119677 / 100000000) + (-88383 / 20000000) * x + (14624951 / 3000000000) * x ^ 2 + (-1 / 720) * x ^ 3 + (1 / 40320) * x ^ 4 + (-1 / 3628800) * x ^ 5 := by
  have key : ∀ u v : ℝ, 0 ≤ u → 0 ≤ v → 0 ≤ (1121839558213151 / 29973381517878624000) * (u ^ 0 * v ^ 5) + (6208322952945371 / 14986690758939312000) * (u ^ 1 * v ^ 4) + (42483873941645083 / 3746672689734828000) * (u ^ 2 * v ^ 3) + (425835680206519 / 14986690758939312) * (u ^ 3 * v ^ 2) + (45559432423544731 / 1873336344867414000) * (u ^ 4 * v ^ 1) + (6432733865272927 / 936668172433707000) * (u ^ 5 * v ^ 0) := by
    intro u v hu hv; positivity
  have := key (x - (987 / 1600)) ((987 / 800) - x) (by linarith) (by linarith)
  calc (0 : ℝ) ≤ _ := this
    _ = _ := by ring

private theorem c1Up_3 (x : ℝ) (h0 : (987 / 800) ≤ x) (h1 : x ≤ (987 / 400)) :
    0 ≤ (119677 / 100000000) + (-88383 / 20000000) * x + (14624951 / 3000000000) * x ^ 2 + (-1 / 720) * x ^ 3 + (1 / 40320) * x ^ 4 + (-1 / 3628800) * x ^ 5 := by
  have key : ∀ u v : ℝ, 0 ≤ u → 0 ≤ v → 0 ≤ (6432733865272927 / 29973381517878624000) * (u ^ 0 * v ^ 5) + (25465787777774587 / 14986690758939312000) * (u ^ 1 * v ^ 4) + (17336472355457051 / 3746672689734828000) * (u ^ 2 * v ^ 3) + (374478313334131 / 74933453794696560) * (u ^ 3 * v ^ 2) + (3476949421244507 / 1873336344867414000) * (u ^ 4 * v ^ 1) + (766959350399 / 936668172433707000) * (u ^ 5 * v ^ 0) := by
    intro u v hu hv; positivity
  have := key (x - (987 / 800)) ((987 / 400) - x) (by linarith) (by linarith)
  calc (0 : ℝ) ≤ _ := this
    _ = _ := by ring

theorem c1Up (x : ℝ) (h0 : 0 ≤ x) (h1 : x ≤ (987 / 400)) :
    0 ≤ (119677 / 100000000) + (-88383 / 20000000) * x + (14624951 / 3000000000) * x ^ 2 + (-1 / 720) * x ^ 3 + (1 / 40320) * x ^ 4 + (-1 / 3628800) * x ^ 5 := by
  rcases le_total x ((987 / 3200) : ℝ) with h | h
  · exact c1Up_0 x (by linarith) h
  rcases le_total x ((987 / 1600) : ℝ) with h | h
  · exact c1Up_1 x (by linarith) h
  rcases le_total x ((987 / 800) : ℝ) with h | h
  · exact c1Up_2 x (by linarith) h
  exact c1Up_3 x (by linarith) (by linarith)

private theorem c1Lo_0 (x : ℝ) (h0 : 0 ≤ x) (h1 : x ≤ (987 / 800)) :
    0 ≤ (323 / 100000000) + (88383 / 20000000) * x + (-14624951 / 3000000000) * x ^ 2 + (1 / 720) * x ^ 3 + (-1 / 40320) * x ^ 4 + (1 / 3628800) * x ^ 5 + (-1 / 479001600) * x ^ 6 := by
  have key : ∀ u v : ℝ, 0 ≤ u → 0 ≤ v → 0 ≤ (846725120000 / 924491486192068809) * (u ^ 0 * v ^ 6) + (478107516928000 / 308163828730689603) * (u ^ 1 * v ^ 5) + (8689496225400832 / 1540819143653448015) * (u ^ 2 * v ^ 4) + (36061183421609984 / 4622457430960344045) * (u ^ 3 * v ^ 3) + (7783307828859992 / 1540819143653448015) * (u ^ 4 * v ^ 2) + (6185441670838553 / 4108851049742528040) * (u ^ 5 * v ^ 1) + (43296710569662490411 / 260336802511686576614400) * (u ^ 6 * v ^ 0) := by
    intro u v hu hv; positivity
  have := key (x - 0) ((987 / 800) - x) (by linarith) (by linarith)
  calc (0 : ℝ) ≤ _ := this
    _ = _ := by ring

private theorem c1Lo_1 (x : ℝ) (h0 : (987 / 800) ≤ x) (h1 : x ≤ (987 / 640)) :
    0 ≤ (323 / 100000000) + (88383 / 20000000) * x + (-14624951 / 3000000000) * x ^ 2 + (1 / 720) * x ^ 3 + (-1 / 40320) * x ^ 4 + (1 / 3628800) * x ^ 5 + (-1 / 479001600) * x ^ 6 := by
  have key : ∀ u v : ℝ, 0 ≤ u → 0 ≤ v → 0 ≤ (173186842278649961644 / 254235158702818922475) * (u ^ 0 * v ^ 6) + (12093223104340586590 / 3389802116037585633) * (u ^ 1 * v ^ 5) + (516906303185290013363 / 67796042320751712660) * (u ^ 2 * v ^ 4) + (1726738416152607858751 / 203388126962255137980) * (u ^ 3 * v ^ 3) + (5618901626831179822843 / 1084736677132027402560) * (u ^ 4 * v ^ 2) + (710567643709908161983 / 433894670852810961024) * (u ^ 5 * v ^ 1) + (2181014864272272835195 / 10413472100467463064576) * (u ^ 6 * v ^ 0) := by
    intro u v hu hv; positivity
  have := key (x - (987 / 800)) ((987 / 640) - x) (by linarith) (by linarith)
  calc (0 : ℝ) ≤ _ := this
    _ = _ := by ring

private theorem c1Lo_2 (x : ℝ) (h0 : (987 / 640) ≤ x) (h1 : x ≤ (2961 / 1600)) :
    0 ≤ (323 / 100000000) + (88383 / 20000000) * x + (-14624951 / 3000000000) * x ^ 2 + (1 / 720) * x ^ 3 + (-1 / 40320) * x ^ 4 + (1 / 3628800) * x ^ 5 + (-1 / 479001600) * x ^ 6 := by
  have key : ∀ u v : ℝ, 0 ≤ u → 0 ≤ v → 0 ≤ (2181014864272272835195 / 10413472100467463064576) * (u ^ 0 * v ^ 6) + (759879576852456511229 / 867789341705621922048) * (u ^ 1 * v ^ 5) + (5944213743140723972947 / 4338946708528109610240) * (u ^ 2 * v ^ 4) + (1553137243073891586533 / 1627105015698041103840) * (u ^ 3 * v ^ 3) + (280353442854692965283 / 1084736677132027402560) * (u ^ 4 * v ^ 2) + (3133494691062206161 / 271184169283006850640) * (u ^ 5 * v ^ 1) + (15796309798499032819 / 4067762539245102759600) * (u ^ 6 * v ^ 0) := by
    intro u v hu hv; positivity
  have := key (x - (987 / 640)) ((2961 / 1600) - x) (by linarith) (by linarith)
  calc (0 : ℝ) ≤ _ := this
    _ = _ := by ring

private theorem c1Lo_3 (x : ℝ) (h0 : (2961 / 1600) ≤ x) (h1 : x ≤ (987 / 400)) :
    0 ≤ (323 / 100000000) + (88383 / 20000000) * x + (-14624951 / 3000000000) * x ^ 2 + (1 / 720) * x ^ 3 + (-1 / 40320) * x ^ 4 + (1 / 3628800) * x ^ 5 + (-1 / 479001600) * x ^ 6 := by
  have key : ∀ u v : ℝ, 0 ≤ u → 0 ≤ v → 0 ≤ (15796309798499032819 / 260336802511686576614400) * (u ^ 0 * v ^ 6) + (7930363985046516913 / 10847366771320274025600) * (u ^ 1 * v ^ 5) + (20532211894332379739 / 1084736677132027402560) * (u ^ 2 * v ^ 4) + (15211286310694080553 / 203388126962255137980) * (u ^ 3 * v ^ 3) + (7941666800438575747 / 67796042320751712660) * (u ^ 4 * v ^ 2) + (6977482327247269826 / 84745052900939640825) * (u ^ 5 * v ^ 1) + (5523508497081968044 / 254235158702818922475) * (u ^ 6 * v ^ 0) := by
    intro u v hu hv; positivity
  have := key (x - (2961 / 1600)) ((987 / 400) - x) (by linarith) (by linarith)
  calc (0 : ℝ) ≤ _ := this
    _ = _ := by ring

theorem c1Lo (x : ℝ) (h0 : 0 ≤ x) (h1 : x ≤ (987 / 400)) :
    0 ≤ (323 / 100000000) + (88383 / 20000000) * x + (-14624951 / 3000000000) * x ^ 2 + (1 / 720) * x ^ 3 + (-1 / 40320) * x ^ 4 + (1 / 3628800) * x ^ 5 + (-1 / 479001600) * x ^ 6 := by
  rcases le_total x ((987 / 800) : ℝ) with h | h
  · exact c1Lo_0 x (by linarith) h
  rcases le_total x ((987 / 640) : ℝ) with h | h
  · exact c1Lo_1 x (by linarith) h
  rcases le_total x ((2961 / 1600) : ℝ) with h | h
  · exact c1Lo_2 x (by linarith) h
  exact c1Lo_3 x (by linarith) (by linarith)

private theorem atD_up_0 (x : ℝ) (h0 : 0 ≤ x) (h1 : x ≤ (1 / 2)) :
    0 ≤ (3087 / 10000000000) + (-12383 / 5000000000) * x + (1135913 / 10000000000) * x ^ 2 + (-4873397 / 2500000000) * x ^ 3 + (163439733 / 10000000000) * x ^ 4 + (-5696259 / 78125000) * x ^ 5 + (402485833 / 2500000000) * x ^ 6 + (-390214017 / 10000000000) * x ^ 7 + (-1829085909 / 2500000000) * x ^ 8 + (5115429843 / 2500000000) * x ^ 9 + (-28005009289 / 10000000000) * x ^ 10 + (21803640791 / 10000000000) * x ^ 11 + (-2310257307 / 2500000000) * x ^ 12 + (415339933 / 2500000000) * x ^ 13 := by
  have key : ∀ u v : ℝ, 0 ≤ u → 0 ≤ v → 0 ≤ (24696 / 9765625) * (u ^ 0 * v ^ 13) + (221984 / 9765625) * (u ^ 1 * v ^ 12) + (3009346 / 9765625) * (u ^ 2 * v ^ 11) + (1204266 / 1953125) * (u ^ 3 * v ^ 10) + (15195953 / 19531250) * (u ^ 4 * v ^ 9) + (2686833 / 781250) * (u ^ 5 * v ^ 8) + (118614949 / 19531250) * (u ^ 6 * v ^ 7) + (165459499 / 31250000) * (u ^ 7 * v ^ 6) + (12266721 / 3906250) * (u ^ 8 * v ^ 5) + (127721501 / 78125000) * (u ^ 9 * v ^ 4) + (909806039 / 1250000000) * (u ^ 10 * v ^ 3) + (563620113 / 2500000000) * (u ^ 11 * v ^ 2) + (10151949 / 250000000) * (u ^ 12 * v ^ 1) + (80611 / 25000000) * (u ^ 13 * v ^ 0) := by
    intro u v hu hv; positivity
  have := key (x - 0) ((1 / 2) - x) (by linarith) (by linarith)
  calc (0 : ℝ) ≤ _ := this
    _ = _ := by ring

private theorem atD_up_1 (x : ℝ) (h0 : (1 / 2) ≤ x) (h1 : x ≤ 1) :
    0 ≤ (3087 / 10000000000) + (-12383 / 5000000000) * x + (1135913 / 10000000000) * x ^ 2 + (-4873397 / 2500000000) * x ^ 3 + (163439733 / 10000000000) * x ^ 4 + (-5696259 / 78125000) * x ^ 5 + (402485833 / 2500000000) * x ^ 6 + (-390214017 / 10000000000) * x ^ 7 + (-1829085909 / 2500000000) * x ^ 8 + (5115429843 / 2500000000) * x ^ 9 + (-28005009289 / 10000000000) * x ^ 10 + (21803640791 / 10000000000) * x ^ 11 + (-2310257307 / 2500000000) * x ^ 12 + (415339933 / 2500000000) * x ^ 13 := by
  have key : ∀ u v : ℝ, 0 ≤ u → 0 ≤ v → 0 ≤ (80611 / 25000000) * (u ^ 0 * v ^ 13) + (10806911 / 250000000) * (u ^ 1 * v ^ 12) + (642215553 / 2500000000) * (u ^ 2 * v ^ 11) + (277835231 / 312500000) * (u ^ 3 * v ^ 10) + (1308988233 / 625000000) * (u ^ 4 * v ^ 9) + (632452491 / 156250000) * (u ^ 5 * v ^ 8) + (1102819193 / 156250000) * (u ^ 6 * v ^ 7) + (724613197 / 78125000) * (u ^ 7 * v ^ 6) + (52446843 / 7812500) * (u ^ 8 * v ^ 5) + (3048309 / 1953125) * (u ^ 9 * v ^ 4) + (545156 / 1953125) * (u ^ 10 * v ^ 3) + (7625564 / 9765625) * (u ^ 11 * v ^ 2) + (300768 / 9765625) * (u ^ 12 * v ^ 1) + (50272 / 9765625) * (u ^ 13 * v ^ 0) := by
    intro u v hu hv; positivity
  have := key (x - (1 / 2)) (1 - x) (by linarith) (by linarith)
  calc (0 : ℝ) ≤ _ := this
    _ = _ := by ring

theorem atD_up (x : ℝ) (h0 : 0 ≤ x) (h1 : x ≤ 1) :
    0 ≤ (3087 / 10000000000) + (-12383 / 5000000000) * x + (1135913 / 10000000000) * x ^ 2 + (-4873397 / 2500000000) * x ^ 3 + (163439733 / 10000000000) * x ^ 4 + (-5696259 / 78125000) * x ^ 5 + (402485833 / 2500000000) * x ^ 6 + (-390214017 / 10000000000) * x ^ 7 + (-1829085909 / 2500000000) * x ^ 8 + (5115429843 / 2500000000) * x ^ 9 + (-28005009289 / 10000000000) * x ^ 10 + (21803640791 / 10000000000) * x ^ 11 + (-2310257307 / 2500000000) * x ^ 12 + (415339933 / 2500000000) * x ^ 13 := by
  rcases le_total x ((1 / 2) : ℝ) with h | h
  · exact atD_up_0 x (by linarith) h
  exact atD_up_1 x (by linarith) (by linarith)

private theorem atD_lo_0 (x : ℝ) (h0 : 0 ≤ x) (h1 : x ≤ (1 / 2)) :
    0 ≤ (2913 / 10000000000) + (12383 / 5000000000) * x + (-1129913 / 10000000000) * x ^ 2 + (4873397 / 2500000000) * x ^ 3 + (-163439733 / 10000000000) * x ^ 4 + (5696259 / 78125000) * x ^ 5 + (-402485833 / 2500000000) * x ^ 6 + (390214017 / 10000000000) * x ^ 7 + (1829085909 / 2500000000) * x ^ 8 + (-5115429843 / 2500000000) * x ^ 9 + (28005009289 / 10000000000) * x ^ 10 + (-21803640791 / 10000000000) * x ^ 11 + (2310257307 / 2500000000) * x ^ 12 + (-415339933 / 2500000000) * x ^ 13 := by
  have key : ∀ u v : ℝ, 0 ≤ u → 0 ≤ v → 0 ≤ (23304 / 9765625) * (u ^ 0 * v ^ 13) + (402016 / 9765625) * (u ^ 1 * v ^ 12) + (746654 / 9765625) * (u ^ 2 * v ^ 11) + (1567734 / 1953125) * (u ^ 3 * v ^ 10) + (54764047 / 19531250) * (u ^ 4 * v ^ 9) + (2413647 / 781250) * (u ^ 5 * v ^ 8) + (54041051 / 19531250) * (u ^ 6 * v ^ 7) + (115858901 / 31250000) * (u ^ 7 * v ^ 6) + (14661279 / 3906250) * (u ^ 8 * v ^ 5) + (178518499 / 78125000) * (u ^ 9 * v ^ 4) + (1100817961 / 1250000000) * (u ^ 10 * v ^ 3) + (563803887 / 2500000000) * (u ^ 11 * v ^ 2) + (9201651 / 250000000) * (u ^ 12 * v ^ 1) + (72989 / 25000000) * (u ^ 13 * v ^ 0) := by
    intro u v hu hv; positivity
  have := key (x - 0) ((1 / 2) - x) (by linarith) (by linarith)
  calc (0 : ℝ) ≤ _ := this
    _ = _ := by ring

private theorem atD_lo_1 (x : ℝ) (h0 : (1 / 2) ≤ x) (h1 : x ≤ (3 / 4)) :
    0 ≤ (2913 / 10000000000) + (12383 / 5000000000) * x + (-1129913 / 10000000000) * x ^ 2 + (4873397 / 2500000000) * x ^ 3 + (-163439733 / 10000000000) * x ^ 4 + (5696259 / 78125000) * x ^ 5 + (-402485833 / 2500000000) * x ^ 6 + (390214017 / 10000000000) * x ^ 7 + (1829085909 / 2500000000) * x ^ 8 + (-5115429843 / 2500000000) * x ^ 9 + (28005009289 / 10000000000) * x ^ 10 + (-21803640791 / 10000000000) * x ^ 11 + (2310257307 / 2500000000) * x ^ 12 + (-415339933 / 2500000000) * x ^ 13 := by
  have key : ∀ u v : ℝ, 0 ≤ u → 0 ≤ v → 0 ≤ (9342592 / 390625) * (u ^ 0 * v ^ 13) + (616449888 / 1953125) * (u ^ 1 * v ^ 12) + (19000298616 / 9765625) * (u ^ 2 * v ^ 11) + (72432764836 / 9765625) * (u ^ 3 * v ^ 10) + (189768324946 / 9765625) * (u ^ 4 * v ^ 9) + (358203849201 / 9765625) * (u ^ 5 * v ^ 8) + (496830233771 / 9765625) * (u ^ 6 * v ^ 7) + (1017761849509 / 19531250) * (u ^ 7 * v ^ 6) + (1534364352099 / 39062500) * (u ^ 8 * v ^ 5) + (210754926073 / 9765625) * (u ^ 9 * v ^ 4) + (2649480701451 / 312500000) * (u ^ 10 * v ^ 3) + (1426826531293 / 625000000) * (u ^ 11 * v ^ 2) + (95295692969 / 250000000) * (u ^ 12 * v ^ 1) + (597542517 / 20000000) * (u ^ 13 * v ^ 0) := by
    intro u v hu hv; positivity
  have := key (x - (1 / 2)) ((3 / 4) - x) (by linarith) (by linarith)
  calc (0 : ℝ) ≤ _ := this
    _ = _ := by ring

private theorem atD_lo_2 (x : ℝ) (h0 : (3 / 4) ≤ x) (h1 : x ≤ 1) :
    0 ≤ (2913 / 10000000000) + (12383 / 5000000000) * x + (-1129913 / 10000000000) * x ^ 2 + (4873397 / 2500000000) * x ^ 3 + (-163439733 / 10000000000) * x ^ 4 + (5696259 / 78125000) * x ^ 5 + (-402485833 / 2500000000) * x ^ 6 + (390214017 / 10000000000) * x ^ 7 + (1829085909 / 2500000000) * x ^ 8 + (-5115429843 / 2500000000) * x ^ 9 + (28005009289 / 10000000000) * x ^ 10 + (-21803640791 / 10000000000) * x ^ 11 + (2310257307 / 2500000000) * x ^ 12 + (-415339933 / 2500000000) * x ^ 13 := by
  have key : ∀ u v : ℝ, 0 ≤ u → 0 ≤ v → 0 ≤ (597542517 / 20000000) * (u ^ 0 * v ^ 13) + (3090800783 / 7812500) * (u ^ 1 * v ^ 12) + (1535124493903 / 625000000) * (u ^ 2 * v ^ 11) + (370022180719 / 39062500) * (u ^ 3 * v ^ 10) + (983207803687 / 39062500) * (u ^ 4 * v ^ 9) + (469067384058 / 9765625) * (u ^ 5 * v ^ 8) + (649382093828 / 9765625) * (u ^ 6 * v ^ 7) + (647450441264 / 9765625) * (u ^ 7 * v ^ 6) + (458791208256 / 9765625) * (u ^ 8 * v ^ 5) + (46323834368 / 1953125) * (u ^ 9 * v ^ 4) + (88478244864 / 9765625) * (u ^ 10 * v ^ 3) + (27967496192 / 9765625) * (u ^ 11 * v ^ 2) + (6118178816 / 9765625) * (u ^ 12 * v ^ 1) + (374603776 / 9765625) * (u ^ 13 * v ^ 0) := by
    intro u v hu hv; positivity
  have := key (x - (3 / 4)) (1 - x) (by linarith) (by linarith)
  calc (0 : ℝ) ≤ _ := this
    _ = _ := by ring

theorem atD_lo (x : ℝ) (h0 : 0 ≤ x) (h1 : x ≤ 1) :
    0 ≤ (2913 / 10000000000) + (12383 / 5000000000) * x + (-1129913 / 10000000000) * x ^ 2 + (4873397 / 2500000000) * x ^ 3 + (-163439733 / 10000000000) * x ^ 4 + (5696259 / 78125000) * x ^ 5 + (-402485833 / 2500000000) * x ^ 6 + (390214017 / 10000000000) * x ^ 7 + (1829085909 / 2500000000) * x ^ 8 + (-5115429843 / 2500000000) * x ^ 9 + (28005009289 / 10000000000) * x ^ 10 + (-21803640791 / 10000000000) * x ^ 11 + (2310257307 / 2500000000) * x ^ 12 + (-415339933 / 2500000000) * x ^ 13 := by
  rcases le_total x ((1 / 2) : ℝ) with h | h
  · exact atD_lo_0 x (by linarith) h
  rcases le_total x ((3 / 4) : ℝ) with h | h
  · exact atD_lo_1 x (by linarith) h
  exact atD_lo_2 x (by linarith) (by linarith)

private theorem at0_up_0 (x : ℝ) (h0 : 0 ≤ x) (h1 : x ≤ 1) :
    0 ≤ (49997 / 10000000) + (87 / 10000000000) * x + (13986777 / 10000000000) * x ^ 2 + (13342774159 / 250000000000) * x ^ 3 + (-243533637 / 500000000000) * x ^ 4 + (-25852488871 / 250000000000) * x ^ 5 + (-17945730881 / 1500000000000) * x ^ 6 + (59306724473 / 546875000000) * x ^ 7 + (817521647 / 1200000000000) * x ^ 8 + (-3660707737 / 22500000000) * x ^ 9 + (405081689371 / 2000000000000) * x ^ 10 + (-3524058040997 / 24750000000000) * x ^ 11 + (526822885489 / 7500000000000) * x ^ 12 + (-16171801149 / 687500000000) * x ^ 13 + (2907379531 / 750000000000) * x ^ 14 := by
  have key : ∀ u v : ℝ, 0 ≤ u → 0 ≤ v → 0 ≤ (49997 / 10000000) * (u ^ 0 * v ^ 14) + (699958087 / 10000000000) * (u ^ 1 * v ^ 13) + (1140928727 / 2500000000) * (u ^ 2 * v ^ 12) + (472511676909 / 250000000000) * (u ^ 3 * v ^ 11) + (2841804956061 / 500000000000) * (u ^ 4 * v ^ 10) + (1643030550157 / 125000000000) * (u ^ 5 * v ^ 9) + (353221728841 / 15000000000) * (u ^ 6 * v ^ 8) + (421453324744867 / 13125000000000) * (u ^ 7 * v ^ 7) + (978001165394527 / 30000000000000) * (u ^ 8 * v ^ 6) + (1083195377575339 / 45000000000000) * (u ^ 9 * v ^ 5) + (112815062420089 / 9000000000000) * (u ^ 10 * v ^ 4) + (54066705989071 / 12375000000000) * (u ^ 11 * v ^ 3) + (912758827438831 / 990000000000000) * (u ^ 12 * v ^ 2) + (45679914834151 / 495000000000000) * (u ^ 13 * v ^ 1) + (236045930041 / 216562500000000) * (u ^ 14 * v ^ 0) := by
    intro u v hu hv; positivity
  have := key (x - 0) (1 - x) (by linarith) (by linarith)
  calc (0 : ℝ) ≤ _ := this
    _ = _ := by ring

theorem at0_up (x : ℝ) (h0 : 0 ≤ x) (h1 : x ≤ 1) :
    0 ≤ (49997 / 10000000) + (87 / 10000000000) * x + (13986777 / 10000000000) * x ^ 2 + (13342774159 / 250000000000) * x ^ 3 + (-243533637 / 500000000000) * x ^ 4 + (-25852488871 / 250000000000) * x ^ 5 + (-17945730881 / 1500000000000) * x ^ 6 + (59306724473 / 546875000000) * x ^ 7 + (817521647 / 1200000000000) * x ^ 8 + (-3660707737 / 22500000000) * x ^ 9 + (405081689371 / 2000000000000) * x ^ 10 + (-3524058040997 / 24750000000000) * x ^ 11 + (526822885489 / 7500000000000) * x ^ 12 + (-16171801149 / 687500000000) * x ^ 13 + (2907379531 / 750000000000) * x ^ 14 := by
  exact at0_up_0 x (by linarith) (by linarith)

private theorem at0_lo_0 (x : ℝ) (h0 : 0 ≤ x) (h1 : x ≤ (1 / 2)) :
    0 ≤ (49997 / 10000000) + (-87 / 10000000000) * x + (14011543 / 10000000000) * x ^ 2 + (-13342774159 / 250000000000) * x ^ 3 + (243533637 / 500000000000) * x ^ 4 + (25852488871 / 250000000000) * x ^ 5 + (17945730881 / 1500000000000) * x ^ 6 + (-59306724473 / 546875000000) * x ^ 7 + (-817521647 / 1200000000000) * x ^ 8 + (3660707737 / 22500000000) * x ^ 9 + (-405081689371 / 2000000000000) * x ^ 10 + (3524058040997 / 24750000000000) * x ^ 11 + (-526822885489 / 7500000000000) * x ^ 12 + (16171801149 / 687500000000) * x ^ 13 + (-2907379531 / 750000000000) * x ^ 14 := by
  have key : ∀ u v : ℝ, 0 ≤ u → 0 ≤ v → 0 ≤ (6399616 / 78125) * (u ^ 0 * v ^ 14) + (11199327304 / 9765625) * (u ^ 1 * v ^ 13) + (72851669124 / 9765625) * (u ^ 2 * v ^ 12) + (7269690146082 / 244140625) * (u ^ 3 * v ^ 11) + (39635701485441 / 488281250) * (u ^ 4 * v ^ 10) + (77784555720261 / 488281250) * (u ^ 5 * v ^ 9) + (1355265440586449 / 5859375000) * (u ^ 6 * v ^ 8) + (6449297901350587 / 25634765625) * (u ^ 7 * v ^ 7) + (96251306318930921 / 468750000000) * (u ^ 8 * v ^ 6) + (87695627440042777 / 703125000000) * (u ^ 9 * v ^ 5) + (62205868511756177 / 1125000000000) * (u ^ 10 * v ^ 4) + (6681287389153271 / 386718750000) * (u ^ 11 * v ^ 3) + (221461740936469369 / 61875000000000) * (u ^ 12 * v ^ 2) + (13546912205259289 / 30937500000000) * (u ^ 13 * v ^ 1) + (20616521773671091 / 866250000000000) * (u ^ 14 * v ^ 0) := by
    intro u v hu hv; positivity
  have := key (x - 0) ((1 / 2) - x) (by linarith) (by linarith)
  calc (0 : ℝ) ≤ _ := this
    _ = _ := by ring

private theorem at0_lo_1 (x : ℝ) (h0 : (1 / 2) ≤ x) (h1 : x ≤ (3 / 4)) :
    0 ≤ (49997 / 10000000) + (-87 / 10000000000) * x + (14011543 / 10000000000) * x ^ 2 + (-13342774159 / 250000000000) * x ^ 3 + (243533637 / 500000000000) * x ^ 4 + (25852488871 / 250000000000) * x ^ 5 + (17945730881 / 1500000000000) * x ^ 6 + (-59306724473 / 546875000000) * x ^ 7 + (-817521647 / 1200000000000) * x ^ 8 + (3660707737 / 22500000000) * x ^ 9 + (-405081689371 / 2000000000000) * x ^ 10 + (3524058040997 / 24750000000000) * x ^ 11 + (-526822885489 / 7500000000000) * x ^ 12 + (16171801149 / 687500000000) * x ^ 13 + (-2907379531 / 750000000000) * x ^ 14 := by
  have key : ∀ u v : ℝ, 0 ≤ u → 0 ≤ v → 0 ≤ (329864348378737456 / 845947265625) * (u ^ 0 * v ^ 14) + (111218370913583024 / 24169921875) * (u ^ 1 * v ^ 13) + (2966952901488029204 / 120849609375) * (u ^ 2 * v ^ 12) + (377048038461030088 / 4833984375) * (u ^ 3 * v ^ 11) + (1795358767976688773 / 10986328125) * (u ^ 4 * v ^ 10) + (2591992922679655693 / 10986328125) * (u ^ 5 * v ^ 9) + (697321365273437579 / 2929687500) * (u ^ 6 * v ^ 8) + (4288039192454072911 / 25634765625) * (u ^ 7 * v ^ 7) + (194016846020651219 / 2343750000) * (u ^ 8 * v ^ 6) + (666761719463672607 / 19531250000) * (u ^ 9 * v ^ 5) + (1449505338548349129 / 78125000000) * (u ^ 10 * v ^ 4) + (1043883348712669401 / 85937500000) * (u ^ 11 * v ^ 3) + (19684647790574284113 / 3437500000000) * (u ^ 12 * v ^ 2) + (1045108010630884241 / 687500000000) * (u ^ 13 * v ^ 1) + (16527516995870172263 / 96250000000000) * (u ^ 14 * v ^ 0) := by
    intro u v hu hv; positivity
  have := key (x - (1 / 2)) ((3 / 4) - x) (by linarith) (by linarith)
  calc (0 : ℝ) ≤ _ := this
    _ = _ := by ring

private theorem at0_lo_2 (x : ℝ) (h0 : (3 / 4) ≤ x) (h1 : x ≤ 1) :
    0 ≤ (49997 / 10000000) + (-87 / 10000000000) * x + (14011543 / 10000000000) * x ^ 2 + (-13342774159 / 250000000000) * x ^ 3 + (243533637 / 500000000000) * x ^ 4 + (25852488871 / 250000000000) * x ^ 5 + (17945730881 / 1500000000000) * x ^ 6 + (-59306724473 / 546875000000) * x ^ 7 + (-817521647 / 1200000000000) * x ^ 8 + (3660707737 / 22500000000) * x ^ 9 + (-405081689371 / 2000000000000) * x ^ 10 + (3524058040997 / 24750000000000) * x ^ 11 + (-526822885489 / 7500000000000) * x ^ 12 + (16171801149 / 687500000000) * x ^ 13 + (-2907379531 / 750000000000) * x ^ 14 := by
  have key : ∀ u v : ℝ, 0 ≤ u → 0 ≤ v → 0 ≤ (16527516995870172263 / 96250000000000) * (u ^ 0 * v ^ 14) + (5650988471357875529 / 1718750000000) * (u ^ 1 * v ^ 13) + (49339163677435786101 / 1718750000000) * (u ^ 2 * v ^ 12) + (32448092750724658879 / 214843750000) * (u ^ 3 * v ^ 11) + (20904681645011501273 / 39062500000) * (u ^ 4 * v ^ 10) + (6607673233665576303 / 4882812500) * (u ^ 5 * v ^ 9) + (9240707380752340958 / 3662109375) * (u ^ 6 * v ^ 8) + (12932209814954331712 / 3662109375) * (u ^ 7 * v ^ 7) + (13673436352506007024 / 3662109375) * (u ^ 8 * v ^ 6) + (32657336829051489152 / 10986328125) * (u ^ 9 * v ^ 5) + (19295883814711763968 / 10986328125) * (u ^ 10 * v ^ 4) + (90357465342815412224 / 120849609375) * (u ^ 11 * v ^ 3) + (26223161258934040576 / 120849609375) * (u ^ 12 * v ^ 2) + (4647854952315502592 / 120849609375) * (u ^ 13 * v ^ 1) + (2658966175701008384 / 845947265625) * (u ^ 14 * v ^ 0) := by
    intro u v hu hv; positivity
  have := key (x - (3 / 4)) (1 - x) (by linarith) (by linarith)
  calc (0 : ℝ) ≤ _ := this
    _ = _ := by ring

theorem at0_lo (x : ℝ) (h0 : 0 ≤ x) (h1 : x ≤ 1) :
    0 ≤ (49997 / 10000000) + (-87 / 10000000000) * x + (14011543 / 10000000000) * x ^ 2 + (-13342774159 / 250000000000) * x ^ 3 + (243533637 / 500000000000) * x ^ 4 + (25852488871 / 250000000000) * x ^ 5 + (17945730881 / 1500000000000) * x ^ 6 + (-59306724473 / 546875000000) * x ^ 7 + (-817521647 / 1200000000000) * x ^ 8 + (3660707737 / 22500000000) * x ^ 9 + (-405081689371 / 2000000000000) * x ^ 10 + (3524058040997 / 24750000000000) * x ^ 11 + (-526822885489 / 7500000000000) * x ^ 12 + (16171801149 / 687500000000) * x ^ 13 + (-2907379531 / 750000000000) * x ^ 14 := by
  rcases le_total x ((1 / 2) : ℝ) with h | h
  · exact at0_lo_0 x (by linarith) h
  rcases le_total x ((3 / 4) : ℝ) with h | h
  · exact at0_lo_1 x (by linarith) h
  exact at0_lo_2 x (by linarith) (by linarith)

private theorem at2_up_0 (x : ℝ) (h0 : 0 ≤ x) (h1 : x ≤ (1 / 8)) :
    0 ≤ (117 / 10000000) + (-1339913 / 10000000000) * x + (-12383 / 10000000000) * x ^ 2 + (15357971 / 5000000000) * x ^ 3 + (-9734411 / 20000000000) * x ^ 4 + (-830643093 / 50000000000) * x ^ 5 + (-70965233 / 6000000000) * x ^ 6 + (219533057 / 2800000000) * x ^ 7 + (319438313 / 80000000000) * x ^ 8 + (-16888821061 / 90000000000) * x ^ 9 + (20142281059 / 100000000000) * x ^ 10 + (-2310257307 / 27500000000) * x ^ 11 + (415339933 / 30000000000) * x ^ 12 := by
  have key : ∀ u v : ℝ, 0 ≤ u → 0 ≤ v → 0 ≤ (62813896704 / 78125) * (u ^ 0 * v ^ 12) + (82980840144896 / 9765625) * (u ^ 1 * v ^ 11) + (394561609269248 / 9765625) * (u ^ 2 * v ^ 10) + (1113078044033024 / 9765625) * (u ^ 3 * v ^ 9) + (2067579000233984 / 9765625) * (u ^ 4 * v ^ 8) + (13258869117310976 / 48828125) * (u ^ 5 * v ^ 7) + (35894029635694336 / 146484375) * (u ^ 6 * v ^ 6) + (53127559751367072 / 341796875) * (u ^ 7 * v ^ 5) + (1859588395699539 / 27343750) * (u ^ 8 * v ^ 4) + (194219876054317 / 9843750) * (u ^ 9 * v ^ 3) + (116872088219276431 / 32812500000) * (u ^ 10 * v ^ 2) + (133322737869823367 / 360937500000) * (u ^ 11 * v ^ 1) + (705813504517465111 / 34650000000000) * (u ^ 12 * v ^ 0) := by
    intro u v hu hv; positivity
  have := key (x - 0) ((1 / 8) - x) (by linarith) (by linarith)
  calc (0 : ℝ) ≤ _ := this
    _ = _ := by ring

private theorem at2_up_1 (x : ℝ) (h0 : (1 / 8) ≤ x) (h1 : x ≤ (1 / 4)) :
    0 ≤ (117 / 10000000) + (-1339913 / 10000000000) * x + (-12383 / 10000000000) * x ^ 2 + (15357971 / 5000000000) * x ^ 3 + (-9734411 / 20000000000) * x ^ 4 + (-830643093 / 50000000000) * x ^ 5 + (-70965233 / 6000000000) * x ^ 6 + (219533057 / 2800000000) * x ^ 7 + (319438313 / 80000000000) * x ^ 8 + (-16888821061 / 90000000000) * x ^ 9 + (20142281059 / 100000000000) * x ^ 10 + (-2310257307 / 27500000000) * x ^ 11 + (415339933 / 30000000000) * x ^ 12 := by
  have key : ∀ u v : ℝ, 0 ≤ u → 0 ≤ v → 0 ≤ (705813504517465111 / 34650000000000) * (u ^ 0 * v ^ 12) + (172522553038171643 / 1443750000000) * (u ^ 1 * v ^ 11) + (106719954435983899 / 131250000000) * (u ^ 2 * v ^ 10) + (119965956602267879 / 19687500000) * (u ^ 3 * v ^ 9) + (121354950740315823 / 4375000000) * (u ^ 4 * v ^ 8) + (105005232359877923 / 1367187500) * (u ^ 5 * v ^ 7) + (81124880814471379 / 585937500) * (u ^ 6 * v ^ 6) + (57841673560289967 / 341796875) * (u ^ 7 * v ^ 5) + (38877163322088839 / 273437500) * (u ^ 8 * v ^ 4) + (49950599941861142 / 615234375) * (u ^ 9 * v ^ 3) + (6191503455114014 / 205078125) * (u ^ 10 * v ^ 2) + (14904907354229848 / 2255859375) * (u ^ 11 * v ^ 1) + (4376034316651852 / 6767578125) * (u ^ 12 * v ^ 0) := by
    intro u v hu hv; positivity
  have := key (x - (1 / 8)) ((1 / 4) - x) (by linarith) (by linarith)
  calc (0 : ℝ) ≤ _ := this
    _ = _ := by ring

private theorem at2_up_2 (x : ℝ) (h0 : (1 / 4) ≤ x) (h1 : x ≤ (1 / 2)) :
    0 ≤ (117 / 10000000) + (-1339913 / 10000000000) * x + (-12383 / 10000000000) * x ^ 2 + (15357971 / 5000000000) * x ^ 3 + (-9734411 / 20000000000) * x ^ 4 + (-830643093 / 50000000000) * x ^ 5 + (-70965233 / 6000000000) * x ^ 6 + (219533057 / 2800000000) * x ^ 7 + (319438313 / 80000000000) * x ^ 8 + (-16888821061 / 90000000000) * x ^ 9 + (20142281059 / 100000000000) * x ^ 10 + (-2310257307 / 27500000000) * x ^ 11 + (415339933 / 30000000000) * x ^ 12 := by
  have key : ∀ u v : ℝ, 0 ≤ u → 0 ≤ v → 0 ≤ (1094008579162963 / 6930000000000) * (u ^ 0 * v ^ 12) + (709456159105079 / 288750000000) * (u ^ 1 * v ^ 11) + (220393553043911 / 13125000000) * (u ^ 2 * v ^ 10) + (656523397094129 / 9843750000) * (u ^ 3 * v ^ 9) + (751172391362447 / 4375000000) * (u ^ 4 * v ^ 8) + (413105022900639 / 1367187500) * (u ^ 5 * v ^ 7) + (109265705660981 / 292968750) * (u ^ 6 * v ^ 6) + (111211972673546 / 341796875) * (u ^ 7 * v ^ 5) + (54428841476007 / 273437500) * (u ^ 8 * v ^ 4) + (51200191267846 / 615234375) * (u ^ 9 * v ^ 3) + (23121032505836 / 1025390625) * (u ^ 10 * v ^ 2) + (40059614093392 / 11279296875) * (u ^ 11 * v ^ 1) + (8317871771548 / 33837890625) * (u ^ 12 * v ^ 0) := by
    intro u v hu hv; positivity
  have := key (x - (1 / 4)) ((1 / 2) - x) (by linarith) (by linarith)
  calc (0 : ℝ) ≤ _ := this
    _ = _ := by ring

private theorem at2_up_3 (x : ℝ) (h0 : (1 / 2) ≤ x) (h1 : x ≤ (5 / 8)) :
    0 ≤ (117 / 10000000) + (-1339913 / 10000000000) * x + (-12383 / 10000000000) * x ^ 2 + (15357971 / 5000000000) * x ^ 3 + (-9734411 / 20000000000) * x ^ 4 + (-830643093 / 50000000000) * x ^ 5 + (-70965233 / 6000000000) * x ^ 6 + (219533057 / 2800000000) * x ^ 7 + (319438313 / 80000000000) * x ^ 8 + (-16888821061 / 90000000000) * x ^ 9 + (20142281059 / 100000000000) * x ^ 10 + (-2310257307 / 27500000000) * x ^ 11 + (415339933 / 30000000000) * x ^ 12 := by
  have key : ∀ u v : ℝ, 0 ≤ u → 0 ≤ v → 0 ≤ (34070002776260608 / 33837890625) * (u ^ 0 * v ^ 12) + (122377926994296832 / 11279296875) * (u ^ 1 * v ^ 11) + (53927815284248576 / 1025390625) * (u ^ 2 * v ^ 10) + (93029869897114624 / 615234375) * (u ^ 3 * v ^ 9) + (19561612082390976 / 68359375) * (u ^ 4 * v ^ 8) + (127742625016199168 / 341796875) * (u ^ 5 * v ^ 7) + (50279752975525984 / 146484375) * (u ^ 6 * v ^ 6) + (75687846905316648 / 341796875) * (u ^ 7 * v ^ 5) + (26919020587528511 / 273437500) * (u ^ 8 * v ^ 4) + (17828615899316678 / 615234375) * (u ^ 9 * v ^ 3) + (17359666447602041 / 3281250000) * (u ^ 10 * v ^ 2) + (79345881128358421 / 144375000000) * (u ^ 11 * v ^ 1) + (41153664637452767 / 1386000000000) * (u ^ 12 * v ^ 0) := by
    intro u v hu hv; positivity
  have := key (x - (1 / 2)) ((5 / 8) - x) (by linarith) (by linarith)
  calc (0 : ℝ) ≤ _ := this
    _ = _ := by ring

private theorem at2_up_4 (x : ℝ) (h0 : (5 / 8) ≤ x) (h1 : x ≤ (3 / 4)) :
    0 ≤ (117 / 10000000) + (-1339913 / 10000000000) * x + (-12383 / 10000000000) * x ^ 2 + (15357971 / 5000000000) * x ^ 3 + (-9734411 / 20000000000) * x ^ 4 + (-830643093 / 50000000000) * x ^ 5 + (-70965233 / 6000000000) * x ^ 6 + (219533057 / 2800000000) * x ^ 7 + (319438313 / 80000000000) * x ^ 8 + (-16888821061 / 90000000000) * x ^ 9 + (20142281059 / 100000000000) * x ^ 10 + (-2310257307 / 27500000000) * x ^ 11 + (415339933 / 30000000000) * x ^ 12 := by
  have key : ∀ u v : ℝ, 0 ≤ u → 0 ≤ v → 0 ≤ (41153664637452767 / 1386000000000) * (u ^ 0 * v ^ 12) + (47076560930546993 / 288750000000) * (u ^ 1 * v ^ 11) + (27262130254646479 / 26250000000) * (u ^ 2 * v ^ 10) + (161109447019677769 / 19687500000) * (u ^ 3 * v ^ 9) + (169967812514393567 / 4375000000) * (u ^ 4 * v ^ 8) + (151027310158891853 / 1367187500) * (u ^ 5 * v ^ 7) + (118750068414711619 / 585937500) * (u ^ 6 * v ^ 6) + (85662792970160897 / 341796875) * (u ^ 7 * v ^ 5) + (463847904850627 / 2187500) * (u ^ 8 * v ^ 4) + (1659943331410482 / 13671875) * (u ^ 9 * v ^ 3) + (15406519619717586 / 341796875) * (u ^ 10 * v ^ 2) + (36858901593228952 / 3759765625) * (u ^ 11 * v ^ 1) + (3567183086485596 / 3759765625) * (u ^ 12 * v ^ 0) := by
    intro u v hu hv; positivity
  have := key (x - (5 / 8)) ((3 / 4) - x) (by linarith) (by linarith)
  calc (0 : ℝ) ≤ _ := this
    _ = _ := by ring

private theorem at2_up_5 (x : ℝ) (h0 : (3 / 4) ≤ x) (h1 : x ≤ (7 / 8)) :
    0 ≤ (117 / 10000000) + (-1339913 / 10000000000) * x + (-12383 / 10000000000) * x ^ 2 + (15357971 / 5000000000) * x ^ 3 + (-9734411 / 20000000000) * x ^ 4 + (-830643093 / 50000000000) * x ^ 5 + (-70965233 / 6000000000) * x ^ 6 + (219533057 / 2800000000) * x ^ 7 + (319438313 / 80000000000) * x ^ 8 + (-16888821061 / 90000000000) * x ^ 9 + (20142281059 / 100000000000) * x ^ 10 + (-2310257307 / 27500000000) * x ^ 11 + (415339933 / 30000000000) * x ^ 12 := by
  have key : ∀ u v : ℝ, 0 ≤ u → 0 ≤ v → 0 ≤ (3567183086485596 / 3759765625) * (u ^ 0 * v ^ 12) + (48753492482425352 / 3759765625) * (u ^ 1 * v ^ 11) + (27301110508913986 / 341796875) * (u ^ 2 * v ^ 10) + (20040614216441198 / 68359375) * (u ^ 3 * v ^ 9) + (195183118903611143 / 273437500) * (u ^ 4 * v ^ 8) + (414936877520470187 / 341796875) * (u ^ 5 * v ^ 7) + (865715301852821179 / 585937500) * (u ^ 6 * v ^ 6) + (252934019531304849 / 195312500) * (u ^ 7 * v ^ 5) + (506271255456362697 / 625000000) * (u ^ 8 * v ^ 4) + (989724842498979797 / 2812500000) * (u ^ 9 * v ^ 3) + (376992466548714641 / 3750000000) * (u ^ 10 * v ^ 2) + (697461040291873717 / 41250000000) * (u ^ 11 * v ^ 1) + (1249978218953184989 / 990000000000) * (u ^ 12 * v ^ 0) := by
    intro u v hu hv; positivity
  have := key (x - (3 / 4)) ((7 / 8) - x) (by linarith) (by linarith)
  calc (0 : ℝ) ≤ _ := this
    _ = _ := by ring

private theorem at2_up_6 (x : ℝ) (h0 : (7 / 8) ≤ x) (h1 : x ≤ (15 / 16)) :
    0 ≤ (117 / 10000000) + (-1339913 / 10000000000) * x + (-12383 / 10000000000) * x ^ 2 + (15357971 / 5000000000) * x ^ 3 + (-9734411 / 20000000000) * x ^ 4 + (-830643093 / 50000000000) * x ^ 5 + (-70965233 / 6000000000) * x ^ 6 + (219533057 / 2800000000) * x ^ 7 + (319438313 / 80000000000) * x ^ 8 + (-16888821061 / 90000000000) * x ^ 9 + (20142281059 / 100000000000) * x ^ 10 + (-2310257307 / 27500000000) * x ^ 11 + (415339933 / 30000000000) * x ^ 12 := by
  have key : ∀ u v : ℝ, 0 ≤ u → 0 ≤ v → 0 ≤ (4999912875812739956 / 966796875) * (u ^ 0 * v ^ 12) + (18840100610206460264 / 322265625) * (u ^ 1 * v ^ 11) + (8776482706542077722 / 29296875) * (u ^ 2 * v ^ 10) + (80746847837301733858 / 87890625) * (u ^ 3 * v ^ 9) + (14644374848165572221 / 7812500) * (u ^ 4 * v ^ 8) + (130574968294350107457 / 48828125) * (u ^ 5 * v ^ 7) + (1597857002237658193063 / 585937500) * (u ^ 6 * v ^ 6) + (2727710995697693028791 / 1367187500) * (u ^ 7 * v ^ 5) + (4524576110288085631223 / 4375000000) * (u ^ 8 * v ^ 4) + (805154466620965432303 / 2187500000) * (u ^ 9 * v ^ 3) + (148262327899574446517 / 1750000000) * (u ^ 10 * v ^ 2) + (1081695901440526133177 / 96250000000) * (u ^ 11 * v ^ 1) + (100031819764868846007 / 154000000000) * (u ^ 12 * v ^ 0) := by
    intro u v hu hv; positivity
  have := key (x - (7 / 8)) ((15 / 16) - x) (by linarith) (by linarith)
  calc (0 : ℝ) ≤ _ := this
    _ = _ := by ring

private theorem at2_up_7 (x : ℝ) (h0 : (15 / 16) ≤ x) (h1 : x ≤ (31 / 32)) :
    0 ≤ (117 / 10000000) + (-1339913 / 10000000000) * x + (-12383 / 10000000000) * x ^ 2 + (15357971 / 5000000000) * x ^ 3 + (-9734411 / 20000000000) * x ^ 4 + (-830643093 / 50000000000) * x ^ 5 + (-70965233 / 6000000000) * x ^ 6 + (219533057 / 2800000000) * x ^ 7 + (319438313 / 80000000000) * x ^ 8 + (-16888821061 / 90000000000) * x ^ 9 + (20142281059 / 100000000000) * x ^ 10 + (-2310257307 / 27500000000) * x ^ 11 + (415339933 / 30000000000) * x ^ 12 := by
  have key : ∀ u v : ℝ, 0 ≤ u → 0 ≤ v → 0 ≤ (400127279059475384028 / 150390625) * (u ^ 0 * v ^ 12) + (18704320692304366431688 / 751953125) * (u ^ 1 * v ^ 11) + (6978382817924939086322 / 68359375) * (u ^ 2 * v ^ 10) + (16412619697087459130942 / 68359375) * (u ^ 3 * v ^ 9) + (96974665124631317149271 / 273437500) * (u ^ 4 * v ^ 8) + (117093673910300178457943 / 341796875) * (u ^ 5 * v ^ 7) + (135739077939353051856151 / 585937500) * (u ^ 6 * v ^ 6) + (197919539046630023173527 / 1367187500) * (u ^ 7 * v ^ 5) + (522639944125967819728599 / 4375000000) * (u ^ 8 * v ^ 4) + (1904583647946732122032343 / 19687500000) * (u ^ 9 * v ^ 3) + (6861971128699883917308823 / 131250000000) * (u ^ 10 * v ^ 2) + (22758263952803620557881111 / 1443750000000) * (u ^ 11 * v ^ 1) + (69993987828601273314108247 / 34650000000000) * (u ^ 12 * v ^ 0) := by
    intro u v hu hv; positivity
  have := key (x - (15 / 16)) ((31 / 32) - x) (by linarith) (by linarith)
  calc (0 : ℝ) ≤ _ := this
    _ = _ := by ring

private theorem at2_up_8 (x : ℝ) (h0 : (31 / 32) ≤ x) (h1 : x ≤ 1) :
    0 ≤ (117 / 10000000) + (-1339913 / 10000000000) * x + (-12383 / 10000000000) * x ^ 2 + (15357971 / 5000000000) * x ^ 3 + (-9734411 / 20000000000) * x ^ 4 + (-830643093 / 50000000000) * x ^ 5 + (-70965233 / 6000000000) * x ^ 6 + (219533057 / 2800000000) * x ^ 7 + (319438313 / 80000000000) * x ^ 8 + (-16888821061 / 90000000000) * x ^ 9 + (20142281059 / 100000000000) * x ^ 10 + (-2310257307 / 27500000000) * x ^ 11 + (415339933 / 30000000000) * x ^ 12 := by
  have key : ∀ u v : ℝ, 0 ≤ u → 0 ≤ v → 0 ≤ (69993987828601273314108247 / 34650000000000) * (u ^ 0 * v ^ 12) + (738058185559338324316049 / 22558593750) * (u ^ 1 * v ^ 11) + (489678610182717439307107 / 2050781250) * (u ^ 2 * v ^ 10) + (127503285677145820439744 / 123046875) * (u ^ 3 * v ^ 9) + (203704127217580217469312 / 68359375) * (u ^ 4 * v ^ 8) + (409591152684894877646848 / 68359375) * (u ^ 5 * v ^ 7) + (253505954444612824727552 / 29296875) * (u ^ 6 * v ^ 6) + (619254755926536357937152 / 68359375) * (u ^ 7 * v ^ 5) + (467151220775660281659392 / 68359375) * (u ^ 8 * v ^ 4) + (2231885965310423302406144 / 615234375) * (u ^ 9 * v ^ 3) + (1320542357112991604801536 / 1025390625) * (u ^ 10 * v ^ 2) + (3099464050947050776297472 / 11279296875) * (u ^ 11 * v ^ 1) + (902612850462715384168448 / 33837890625) * (u ^ 12 * v ^ 0) := by
    intro u v hu hv; positivity
  have := key (x - (31 / 32)) (1 - x) (by linarith) (by linarith)
  calc (0 : ℝ) ≤ _ := this
    _ = _ := by ring

theorem at2_up (x : ℝ) (h0 : 0 ≤ x) (h1 : x ≤ 1) :
    0 ≤ (117 / 10000000) + (-1339913 / 10000000000) * x + (-12383 / 10000000000) * x ^ 2 + (15357971 / 5000000000) * x ^ 3 + (-9734411 / 20000000000) * x ^ 4 + (-830643093 / 50000000000) * x ^ 5 + (-70965233 / 6000000000) * x ^ 6 + (219533057 / 2800000000) * x ^ 7 + (319438313 / 80000000000) * x ^ 8 + (-16888821061 / 90000000000) * x ^ 9 + (20142281059 / 100000000000) * x ^ 10 + (-2310257307 / 27500000000) * x ^ 11 + (415339933 / 30000000000) * x ^ 12 := by
  rcases le_total x ((1 / 8) : ℝ) with h | h
  · exact at2_up_0 x (by linarith) h
  rcases le_total x ((1 / 4) : ℝ) with h | h
  · exact at2_up_1 x (by linarith) h
  rcases le_total x ((1 / 2) : ℝ) with h | h
  · exact at2_up_2 x (by linarith) h
  rcases le_total x ((5 / 8) : ℝ) with h | h
  · exact at2_up_3 x (by linarith) h
  rcases le_total x ((3 / 4) : ℝ) with h | h
  · exact at2_up_4 x (by linarith) h
  rcases le_total x ((7 / 8) : ℝ) with h | h
  · exact at2_up_5 x (by linarith) h
  rcases le_total x ((15 / 16) : ℝ) with h | h
  · exact at2_up_6 x (by linarith) h
  rcases le_total x ((31 / 32) : ℝ) with h | h
  · exact at2_up_7 x (by linarith) h
  exact at2_up_8 x (by linarith) (by linarith)

private theorem at2_lo_0 (x : ℝ) (h0 : 0 ≤ x) (h1 : x ≤ (1 / 4)) :
    0 ≤ (117 / 10000000) + (1339913 / 10000000000) * x + (12383 / 10000000000) * x ^ 2 + (-15357971 / 5000000000) * x ^ 3 + (9734411 / 20000000000) * x ^ 4 + (830643093 / 50000000000) * x ^ 5 + (70965233 / 6000000000) * x ^ 6 + (-219533057 / 2800000000) * x ^ 7 + (-319438313 / 80000000000) * x ^ 8 + (16888821061 / 90000000000) * x ^ 9 + (-20142281059 / 100000000000) * x ^ 10 + (2310257307 / 27500000000) * x ^ 11 + (-415339933 / 30000000000) * x ^ 12 := by
  have key : ∀ u v : ℝ, 0 ≤ u → 0 ≤ v → 0 ≤ (15335424 / 78125) * (u ^ 0 * v ^ 12) + (28491419648 / 9765625) * (u ^ 1 * v ^ 11) + (37380209664 / 1953125) * (u ^ 2 * v ^ 10) + (715843281408 / 9765625) * (u ^ 3 * v ^ 9) + (1784558741344 / 9765625) * (u ^ 4 * v ^ 8) + (15264670742608 / 48828125) * (u ^ 5 * v ^ 7) + (55151659200308 / 146484375) * (u ^ 6 * v ^ 6) + (109953684668011 / 341796875) * (u ^ 7 * v ^ 5) + (84667779560269 / 437500000) * (u ^ 8 * v ^ 4) + (786715753376149 / 9843750000) * (u ^ 9 * v ^ 3) + (564273358207373 / 26250000000) * (u ^ 10 * v ^ 2) + (243940257609529 / 72187500000) * (u ^ 11 * v ^ 1) + (1626618321829037 / 6930000000000) * (u ^ 12 * v ^ 0) := by
    intro u v hu hv; positivity
  have := key (x - 0) ((1 / 4) - x) (by linarith) (by linarith)
  calc (0 : ℝ) ≤ _ := this
    _ = _ := by ring

private theorem at2_lo_1 (x : ℝ) (h0 : (1 / 4) ≤ x) (h1 : x ≤ (3 / 8)) :
    0 ≤ (117 / 10000000) + (1339913 / 10000000000) * x + (12383 / 10000000000) * x ^ 2 + (-15357971 / 5000000000) * x ^ 3 + (9734411 / 20000000000) * x ^ 4 + (830643093 / 50000000000) * x ^ 5 + (70965233 / 6000000000) * x ^ 6 + (-219533057 / 2800000000) * x ^ 7 + (-319438313 / 80000000000) * x ^ 8 + (16888821061 / 90000000000) * x ^ 9 + (-20142281059 / 100000000000) * x ^ 10 + (2310257307 / 27500000000) * x ^ 11 + (-415339933 / 30000000000) * x ^ 12 := by
  have key : ∀ u v : ℝ, 0 ≤ u → 0 ≤ v → 0 ≤ (6506473287316148 / 6767578125) * (u ^ 0 * v ^ 12) + (23426663236887032 / 2255859375) * (u ^ 1 * v ^ 11) + (10375051928066866 / 205078125) * (u ^ 2 * v ^ 10) + (90239495303874862 / 615234375) * (u ^ 3 * v ^ 9) + (76871154412979977 / 273437500) * (u ^ 4 * v ^ 8) + (127843136513209987 / 341796875) * (u ^ 5 * v ^ 7) + (206656028330337029 / 585937500) * (u ^ 6 * v ^ 6) + (322885236345459583 / 1367187500) * (u ^ 7 * v ^ 5) + (484069742551608433 / 4375000000) * (u ^ 8 * v ^ 4) + (613285046091183 / 17500000) * (u ^ 9 * v ^ 3) + (308511278733088239 / 43750000000) * (u ^ 10 * v ^ 2) + (388170135600631693 / 481250000000) * (u ^ 11 * v ^ 1) + (158334573464032017 / 3850000000000) * (u ^ 12 * v ^ 0) := by
    intro u v hu hv; positivity
  have := key (x - (1 / 4)) ((3 / 8) - x) (by linarith) (by linarith)
  calc (0 : ℝ) ≤ _ := this
    _ = _ := by ring

private theorem at2_lo_2 (x : ℝ) (h0 : (3 / 8) ≤ x) (h1 : x ≤ (1 / 2)) :
    0 ≤ (117 / 10000000) + (1339913 / 10000000000) * x + (12383 / 10000000000) * x ^ 2 + (-15357971 / 5000000000) * x ^ 3 + (9734411 / 20000000000) * x ^ 4 + (830643093 / 50000000000) * x ^ 5 + (70965233 / 6000000000) * x ^ 6 + (-219533057 / 2800000000) * x ^ 7 + (-319438313 / 80000000000) * x ^ 8 + (16888821061 / 90000000000) * x ^ 9 + (-20142281059 / 100000000000) * x ^ 10 + (2310257307 / 27500000000) * x ^ 11 + (-415339933 / 30000000000) * x ^ 12 := by
  have key : ∀ u v : ℝ, 0 ≤ u → 0 ≤ v → 0 ≤ (158334573464032017 / 3850000000000) * (u ^ 0 * v ^ 12) + (43416792395732179 / 240625000000) * (u ^ 1 * v ^ 11) + (896840990490113 / 5468750000) * (u ^ 2 * v ^ 10) + (62971432346584 / 68359375) * (u ^ 3 * v ^ 9) + (2778724144098817 / 273437500) * (u ^ 4 * v ^ 8) + (2790209852311688 / 68359375) * (u ^ 5 * v ^ 7) + (2621673741698848 / 29296875) * (u ^ 6 * v ^ 6) + (8430054351608832 / 68359375) * (u ^ 7 * v ^ 5) + (7680253854900288 / 68359375) * (u ^ 8 * v ^ 4) + (8368254731342848 / 123046875) * (u ^ 9 * v ^ 3) + (27093092533940224 / 1025390625) * (u ^ 10 * v ^ 2) + (67468056863571968 / 11279296875) * (u ^ 11 * v ^ 1) + (20342535243579392 / 33837890625) * (u ^ 12 * v ^ 0) := by
    intro u v hu hv; positivity
  have := key (x - (3 / 8)) ((1 / 2) - x) (by linarith) (by linarith)
  calc (0 : ℝ) ≤ _ := this
    _ = _ := by ring

private theorem at2_lo_3 (x : ℝ) (h0 : (1 / 2) ≤ x) (h1 : x ≤ (3 / 4)) :
    0 ≤ (117 / 10000000) + (1339913 / 10000000000) * x + (12383 / 10000000000) * x ^ 2 + (-15357971 / 5000000000) * x ^ 3 + (9734411 / 20000000000) * x ^ 4 + (830643093 / 50000000000) * x ^ 5 + (70965233 / 6000000000) * x ^ 6 + (-219533057 / 2800000000) * x ^ 7 + (-319438313 / 80000000000) * x ^ 8 + (16888821061 / 90000000000) * x ^ 9 + (-20142281059 / 100000000000) * x ^ 10 + (2310257307 / 27500000000) * x ^ 11 + (-415339933 / 30000000000) * x ^ 12 := by
  have key : ∀ u v : ℝ, 0 ≤ u → 0 ≤ v → 0 ≤ (4966439268452 / 33837890625) * (u ^ 0 * v ^ 12) + (26653884081008 / 11279296875) * (u ^ 1 * v ^ 11) + (17023843588564 / 1025390625) * (u ^ 2 * v ^ 10) + (41428517788982 / 615234375) * (u ^ 3 * v ^ 9) + (9612846031221 / 54687500) * (u ^ 4 * v ^ 8) + (106357612459998 / 341796875) * (u ^ 5 * v ^ 7) + (112102942558843 / 292968750) * (u ^ 6 * v ^ 6) + (449110882879207 / 1367187500) * (u ^ 7 * v ^ 5) + (851285005835473 / 4375000000) * (u ^ 8 * v ^ 4) + (84330871452523 / 1093750000) * (u ^ 9 * v ^ 3) + (421307055238031 / 21875000000) * (u ^ 10 * v ^ 2) + (1301201392015289 / 481250000000) * (u ^ 11 * v ^ 1) + (619663617818601 / 3850000000000) * (u ^ 12 * v ^ 0) := by
    intro u v hu hv; positivity
  have := key (x - (1 / 2)) ((3 / 4) - x) (by linarith) (by linarith)
  calc (0 : ℝ) ≤ _ := this
    _ = _ := by ring

private theorem at2_lo_4 (x : ℝ) (h0 : (3 / 4) ≤ x) (h1 : x ≤ (13 / 16)) :
    0 ≤ (117 / 10000000) + (1339913 / 10000000000) * x + (12383 / 10000000000) * x ^ 2 + (-15357971 / 5000000000) * x ^ 3 + (9734411 / 20000000000) * x ^ 4 + (830643093 / 50000000000) * x ^ 5 + (70965233 / 6000000000) * x ^ 6 + (-219533057 / 2800000000) * x ^ 7 + (-319438313 / 80000000000) * x ^ 8 + (16888821061 / 90000000000) * x ^ 9 + (-20142281059 / 100000000000) * x ^ 10 + (2310257307 / 27500000000) * x ^ 11 + (-415339933 / 30000000000) * x ^ 12 := by
  have key : ∀ u v : ℝ, 0 ≤ u → 0 ≤ v → 0 ≤ (10152568714339958784 / 3759765625) * (u ^ 0 * v ^ 12) + (109650763501542391808 / 3759765625) * (u ^ 1 * v ^ 11) + (48785817473010776064 / 341796875) * (u ^ 2 * v ^ 10) + (28570491794269744128 / 68359375) * (u ^ 3 * v ^ 9) + (55645230294449699392 / 68359375) * (u ^ 4 * v ^ 8) + (378874353893586041728 / 341796875) * (u ^ 5 * v ^ 7) + (158094817980252468944 / 146484375) * (u ^ 6 * v ^ 6) + (257899437420023729368 / 341796875) * (u ^ 7 * v ^ 5) + (20479329834443425709 / 54687500) * (u ^ 8 * v ^ 4) + (315292357167754691983 / 2460937500) * (u ^ 9 * v ^ 3) + (937634307021435908293 / 32812500000) * (u ^ 10 * v ^ 2) + (2693407361624909082067 / 721875000000) * (u ^ 11 * v ^ 1) + (7574854892876738064793 / 34650000000000) * (u ^ 12 * v ^ 0) := by
    intro u v hu hv; positivity
  have := key (x - (3 / 4)) ((13 / 16) - x) (by linarith) (by linarith)
  calc (0 : ℝ) ≤ _ := this
    _ = _ := by ring

private theorem at2_lo_5 (x : ℝ) (h0 : (13 / 16) ≤ x) (h1 : x ≤ (7 / 8)) :
    0 ≤ (117 / 10000000) + (1339913 / 10000000000) * x + (12383 / 10000000000) * x ^ 2 + (-15357971 / 5000000000) * x ^ 3 + (9734411 / 20000000000) * x ^ 4 + (830643093 / 50000000000) * x ^ 5 + (70965233 / 6000000000) * x ^ 6 + (-219533057 / 2800000000) * x ^ 7 + (-319438313 / 80000000000) * x ^ 8 + (16888821061 / 90000000000) * x ^ 9 + (-20142281059 / 100000000000) * x ^ 10 + (2310257307 / 27500000000) * x ^ 11 + (-415339933 / 30000000000) * x ^ 12 := by
  have key : ∀ u v : ℝ, 0 ≤ u → 0 ≤ v → 0 ≤ (7574854892876738064793 / 34650000000000) * (u ^ 0 * v ^ 12) + (2188040169626919900659 / 1443750000000) * (u ^ 1 * v ^ 11) + (551762674462845369697 / 131250000000) * (u ^ 2 * v ^ 10) + (143683550042476936043 / 19687500000) * (u ^ 3 * v ^ 9) + (79810325779251120553 / 4375000000) * (u ^ 4 * v ^ 8) + (82899168161983583331 / 1367187500) * (u ^ 5 * v ^ 7) + (83236402995784082033 / 585937500) * (u ^ 6 * v ^ 6) + (10417850810056466317 / 48828125) * (u ^ 7 * v ^ 5) + (8197468105738292799 / 39062500) * (u ^ 8 * v ^ 4) + (11934293772420373418 / 87890625) * (u ^ 9 * v ^ 3) + (1640058691898331158 / 29296875) * (u ^ 10 * v ^ 2) + (4312083972763356616 / 322265625) * (u ^ 11 * v ^ 1) + (1367908716451964044 / 966796875) * (u ^ 12 * v ^ 0) := by
    intro u v hu hv; positivity
  have := key (x - (13 / 16)) ((7 / 8) - x) (by linarith) (by linarith)
  calc (0 : ℝ) ≤ _ := this
    _ = _ := by ring

private theorem at2_lo_6 (x : ℝ) (h0 : (7 / 8) ≤ x) (h1 : x ≤ 1) :
    0 ≤ (117 / 10000000) + (1339913 / 10000000000) * x + (12383 / 10000000000) * x ^ 2 + (-15357971 / 5000000000) * x ^ 3 + (9734411 / 20000000000) * x ^ 4 + (830643093 / 50000000000) * x ^ 5 + (70965233 / 6000000000) * x ^ 6 + (-219533057 / 2800000000) * x ^ 7 + (-319438313 / 80000000000) * x ^ 8 + (16888821061 / 90000000000) * x ^ 9 + (-20142281059 / 100000000000) * x ^ 10 + (2310257307 / 27500000000) * x ^ 11 + (-415339933 / 30000000000) * x ^ 12 := by
  have key : ∀ u v : ℝ, 0 ≤ u → 0 ≤ v → 0 ≤ (341977179112991011 / 990000000000) * (u ^ 0 * v ^ 12) + (30432565046472091 / 5156250000) * (u ^ 1 * v ^ 11) + (41485061149597951 / 937500000) * (u ^ 2 * v ^ 10) + (16932327427243781 / 87890625) * (u ^ 3 * v ^ 9) + (10614684095167083 / 19531250) * (u ^ 4 * v ^ 8) + (51145195820578816 / 48828125) * (u ^ 5 * v ^ 7) + (206911528393832576 / 146484375) * (u ^ 6 * v ^ 6) + (456914060094769152 / 341796875) * (u ^ 7 * v ^ 5) + (59632186084298752 / 68359375) * (u ^ 8 * v ^ 4) + (46099794271404032 / 123046875) * (u ^ 9 * v ^ 3) + (97968661556363264 / 1025390625) * (u ^ 10 * v ^ 2) + (124279356934586368 / 11279296875) * (u ^ 11 * v ^ 1) + (612619698307072 / 33837890625) * (u ^ 12 * v ^ 0) := by
    intro u v hu hv; positivity
  have := key (x - (7 / 8)) (1 - x) (by linarith) (by linarith)
  calc (0 : ℝ) ≤ _ := this
    _ = _ := by ring

theorem at2_lo (x : ℝ) (h0 : 0 ≤ x) (h1 : x ≤ 1) :
    0 ≤ (117 / 10000000) + (1339913 / 10000000000) * x + (12383 / 10000000000) * x ^ 2 + (-15357971 / 5000000000) * x ^ 3 + (9734411 / 20000000000) * x ^ 4 + (830643093 / 50000000000) * x ^ 5 + (70965233 / 6000000000) * x ^ 6 + (-219533057 / 2800000000) * x ^ 7 + (-319438313 / 80000000000) * x ^ 8 + (16888821061 / 90000000000) * x ^ 9 + (-20142281059 / 100000000000) * x ^ 10 + (2310257307 / 27500000000) * x ^ 11 + (-415339933 / 30000000000) * x ^ 12 := by
  rcases le_total x ((1 / 4) : ℝ) with h | h
  · exact at2_lo_0 x (by linarith) h
  rcases le_total x ((3 / 8) : ℝ) with h | h
  · exact at2_lo_1 x (by linarith) h
  rcases le_total x ((1 / 2) : ℝ) with h | h
  · exact at2_lo_2 x (by linarith) h
  rcases le_total x ((3 / 4) : ℝ) with h | h
  · exact at2_lo_3 x (by linarith) h
  rcases le_total x ((13 / 16) : ℝ) with h | h
  · exact at2_lo_4 x (by linarith) h
  rcases le_total x ((7 / 8) : ℝ) with h | h
  · exact at2_lo_5 x (by linarith) h
  exact at2_lo_6 x (by linarith) (by linarith)

/-- a polynomial close to the arc tangent on `[0, 1]` -/
noncomputable def atP (x : ℝ) : ℝ :=
  (9999999913 / 10000000000) * x + (12383 / 10000000000) * x ^ 2 + (-1666855471 / 5000000000) * x ^ 3 + (9734411 / 20000000000) * x ^ 4 + (9837693093 / 50000000000) * x ^ 5 + (70965233 / 6000000000) * x ^ 6 + (-457905457 / 2800000000) * x ^ 7 + (-319438313 / 80000000000) * x ^ 8 + (18763980061 / 90000000000) * x ^ 9 + (-20142281059 / 100000000000) * x ^ 10 + (2310257307 / 27500000000) * x ^ 11 + (-415339933 / 30000000000) * x ^ 12

/-- the derivative of `atP` -/
noncomputable def atP' (x : ℝ) : ℝ :=
  (9999999913 / 10000000000) + (12383 / 5000000000) * x + (-5000566413 / 5000000000) * x ^ 2 + (9734411 / 5000000000) * x ^ 3 + (9837693093 / 10000000000) * x ^ 4 + (70965233 / 1000000000) * x ^ 5 + (-457905457 / 400000000) * x ^ 6 + (-319438313 / 10000000000) * x ^ 7 + (18763980061 / 10000000000) * x ^ 8 + (-20142281059 / 10000000000) * x ^ 9 + (2310257307 / 2500000000) * x ^ 10 + (-415339933 / 2500000000) * x ^ 11

end Verif.TrigCert
