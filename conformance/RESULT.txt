Output of Verif/Conformance.lean for the five files of /repo/data_pytest (L=100 takes six minutes in the interpreter):

L=5 pc true sites true bonds true largest equal true wrapping equal true entropy equal true, max difference 0.000000 lengths [25, 25, 25, 25, 25, 25]
L=10 pc true sites true bonds true largest equal true wrapping equal true entropy equal true, max difference 0.000000 lengths [100, 100, 100, 100, 100, 100]
L=25 pc true sites true bonds true largest equal true wrapping equal true entropy equal true, max difference 0.000000 lengths [625, 625, 625, 625, 625, 625]
L=50 pc true sites true bonds true largest equal true wrapping equal true entropy equal true, max difference 0.000000 lengths [2500, 2500, 2500, 2500, 2500, 2500]
L=100 pc true sites true bonds true largest equal true wrapping equal true entropy equal true, max difference 0.000000 lengths [10000, 10000, 10000, 10000, 10000, 10000]
