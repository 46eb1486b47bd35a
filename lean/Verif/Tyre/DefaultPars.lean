import Verif.Tyre.Forces
/-!
# The parameters of the default MF5.2 tyre
-/

namespace Lumos.Tyre

open Lumos Io Veh

theorem d_FNOMIN : par defaults "FNOMIN" = 47083 / 5 := rfl
theorem d_LFZO : par defaults "LFZO" = 1 := rfl
theorem d_LMUX : par defaults "LMUX" = 1 := rfl
theorem d_LMUY : par defaults "LMUY" = 1 := rfl
theorem d_epsilonv : par defaults "epsilonv" = 1 / 1000000 := rfl
theorem d_LCX : par defaults "LCX" = 1 := rfl
theorem d_LEX : par defaults "LEX" = 1 := rfl
theorem d_LKX : par defaults "LKX" = 1 := rfl
theorem d_LHX : par defaults "LHX" = 1 := rfl
theorem d_LVX : par defaults "LVX" = 1 := rfl
theorem d_PCX1 : par defaults "PCX1" = 2721 / 2000 := rfl
theorem d_PDX1 : par defaults "PDX1" = 177 / 200 := rfl
theorem d_PDX2 : par defaults "PDX2" = -(5653 / 100000) := rfl
theorem d_PDX3 : par defaults "PDX3" = -(1096 / 125) := rfl
theorem d_PEX1 : par defaults "PEX1" = -(2631 / 20000) := rfl
theorem d_PEX2 : par defaults "PEX2" = -(19 / 40) := rfl
theorem d_PEX3 : par defaults "PEX3" = -(6563 / 5000) := rfl
theorem d_PEX4 : par defaults "PEX4" = -(337 / 200) := rfl
theorem d_PKX1 : par defaults "PKX1" = 667 / 40 := rfl
theorem d_PKX2 : par defaults "PKX2" = -(569 / 12500) := rfl
theorem d_PKX3 : par defaults "PKX3" = 841 / 2000 := rfl
theorem d_PHX1 : par defaults "PHX1" = 8731 / 100000000 := rfl
theorem d_PHX2 : par defaults "PHX2" = -(11733 / 10000000) := rfl
theorem d_PVX1 : par defaults "PVX1" = 1913 / 100000 := rfl
theorem d_PVX2 : par defaults "PVX2" = 1327 / 50000 := rfl
theorem d_epsilonx : par defaults "epsilonx" = 1 / 1000 := rfl
theorem d_LXAL : par defaults "LXAL" = 1 := rfl
theorem d_RBX1 : par defaults "RBX1" = 9509 / 1000 := rfl
theorem d_RBX2 : par defaults "RBX2" = -(951 / 100) := rfl
theorem d_RCX1 : par defaults "RCX1" = 10061 / 10000 := rfl
theorem d_REX1 : par defaults "REX1" = -(3963 / 2000) := rfl
theorem d_REX2 : par defaults "REX2" = -(569 / 125) := rfl
theorem d_RHX1 : par defaults "RHX1" = 10039 / 1000000 := rfl
theorem d_LCY : par defaults "LCY" = 1 := rfl
theorem d_LEY : par defaults "LEY" = 1 := rfl
theorem d_LKY : par defaults "LKY" = 1 := rfl
theorem d_LHY : par defaults "LHY" = 1 := rfl
theorem d_LVY : par defaults "LVY" = 1 := rfl
theorem d_PCY1 : par defaults "PCY1" = 1889 / 1000 := rfl
theorem d_PDY1 : par defaults "PDY1" = 8271 / 10000 := rfl
theorem d_PDY2 : par defaults "PDY2" = -(1153 / 5000) := rfl
theorem d_PDY3 : par defaults "PDY3" = -(886 / 125) := rfl
theorem d_PEY1 : par defaults "PEY1" = 917 / 2000 := rfl
theorem d_PEY2 : par defaults "PEY2" = -(21823 / 100000) := rfl
theorem d_PEY3 : par defaults "PEY3" = -(242 / 625) := rfl
theorem d_PEY4 : par defaults "PEY4" = 99 / 25 := rfl
theorem d_PKY1 : par defaults "PKY1" = -(291 / 10) := rfl
theorem d_PKY2 : par defaults "PKY2" = 947 / 125 := rfl
theorem d_PKY3 : par defaults "PKY3" = 118 / 125 := rfl
theorem d_PHY1 : par defaults "PHY1" = 1119 / 250000 := rfl
theorem d_PHY2 : par defaults "PHY2" = 6499 / 2500000 := rfl
theorem d_PHY3 : par defaults "PHY3" = 6973 / 1000000 := rfl
theorem d_PVY1 : par defaults "PVY1" = 2989 / 500000 := rfl
theorem d_PVY2 : par defaults "PVY2" = 4073 / 500000 := rfl
theorem d_PVY3 : par defaults "PVY3" = -(2033 / 5000) := rfl
theorem d_PVY4 : par defaults "PVY4" = -(4417 / 10000) := rfl
theorem d_epsilony : par defaults "epsilony" = 1 / 1000 := rfl
theorem d_LYKA : par defaults "LYKA" = 1 := rfl
theorem d_LVYKA : par defaults "LVYKA" = 1 := rfl
theorem d_RBY1 : par defaults "RBY1" = 2521 / 500 := rfl
theorem d_RBY2 : par defaults "RBY2" = 2429 / 500 := rfl
theorem d_RBY3 : par defaults "RBY3" = 1529 / 25000 := rfl
theorem d_RCY1 : par defaults "RCY1" = 5321 / 5000 := rfl
theorem d_REY1 : par defaults "REY1" = -(9207 / 10000) := rfl
theorem d_REY2 : par defaults "REY2" = -(2167 / 5000) := rfl
theorem d_RHY1 : par defaults "RHY1" = -(4773 / 5000000) := rfl
theorem d_RHY2 : par defaults "RHY2" = 1753 / 50000000 := rfl
theorem d_RVY1 : par defaults "RVY1" = -(2541 / 100000) := rfl
theorem d_RVY2 : par defaults "RVY2" = 2259 / 100000 := rfl
theorem d_RVY3 : par defaults "RVY3" = -(4661 / 5000) := rfl
theorem d_RVY4 : par defaults "RVY4" = 529 / 25 := rfl
theorem d_RVY5 : par defaults "RVY5" = 19 / 10 := rfl
theorem d_RVY6 : par defaults "RVY6" = -(1944 / 125) := rfl
theorem d_UNLOADED_RADIUS : par defaults "UNLOADED_RADIUS" = 2 / 5 := rfl
theorem d_LVMX : par defaults "LVMX" = 1 := rfl
theorem d_LMX : par defaults "LMX" = 1 := rfl
theorem d_QSX1 : par defaults "QSX1" = -(3093 / 1000000) := rfl
theorem d_QSX2 : par defaults "QSX2" = 3019 / 5000 := rfl
theorem d_QSX3 : par defaults "QSX3" = 5081 / 200000 := rfl
theorem d_LONGVL : par defaults "LONGVL" = 15 := rfl
theorem d_LMY : par defaults "LMY" = 1 := rfl
theorem d_QSY1 : par defaults "QSY1" = 1 / 100 := rfl
theorem d_QSY2 : par defaults "QSY2" = 0 := rfl
theorem d_QSY3 : par defaults "QSY3" = 0 := rfl
theorem d_QSY4 : par defaults "QSY4" = 0 := rfl
theorem d_epsilonk : par defaults "epsilonk" = 1 / 1000000 := rfl
theorem d_LTR : par defaults "LTR" = 1 := rfl
theorem d_LRES : par defaults "LRES" = 1 := rfl
theorem d_LS : par defaults "LS" = 1 := rfl
theorem d_QBZ1 : par defaults "QBZ1" = 1207 / 200 := rfl
theorem d_QBZ2 : par defaults "QBZ2" = -(4451 / 5000) := rfl
theorem d_QBZ3 : par defaults "QBZ3" = 5929 / 5000 := rfl
theorem d_QBZ4 : par defaults "QBZ4" = 887 / 10000 := rfl
theorem d_QBZ5 : par defaults "QBZ5" = -(1299 / 5000) := rfl
theorem d_QBZ9 : par defaults "QBZ9" = 183 / 25 := rfl
theorem d_QBZ10 : par defaults "QBZ10" = 0 := rfl
theorem d_QCZ1 : par defaults "QCZ1" = 16637 / 10000 := rfl
theorem d_QDZ1 : par defaults "QDZ1" = 3809 / 50000 := rfl
theorem d_QDZ2 : par defaults "QDZ2" = -(1363 / 50000) := rfl
theorem d_QDZ3 : par defaults "QDZ3" = 2553 / 5000 := rfl
theorem d_QDZ4 : par defaults "QDZ4" = 55 / 2 := rfl
theorem d_QDZ6 : par defaults "QDZ6" = -(6181 / 5000000) := rfl
theorem d_QDZ7 : par defaults "QDZ7" = -(697 / 200000) := rfl
theorem d_QDZ8 : par defaults "QDZ8" = -(2709 / 25000) := rfl
theorem d_QDZ9 : par defaults "QDZ9" = -(249 / 6250) := rfl
theorem d_QEZ1 : par defaults "QEZ1" = -(2109 / 50000) := rfl
theorem d_QEZ2 : par defaults "QEZ2" = 83 / 31250 := rfl
theorem d_QEZ3 : par defaults "QEZ3" = 0 := rfl
theorem d_QEZ4 : par defaults "QEZ4" = 853 / 625 := rfl
theorem d_QEZ5 : par defaults "QEZ5" = -(993 / 10) := rfl
theorem d_QHZ1 : par defaults "QHZ1" = 4849 / 250000 := rfl
theorem d_QHZ2 : par defaults "QHZ2" = -(17907 / 10000000) := rfl
theorem d_QHZ3 : par defaults "QHZ3" = 9319 / 100000 := rfl
theorem d_QHZ4 : par defaults "QHZ4" = -(469 / 12500) := rfl
theorem d_SSZ1 : par defaults "SSZ1" = 9003 / 1000000 := rfl
theorem d_SSZ2 : par defaults "SSZ2" = -(11339 / 1000000) := rfl
theorem d_SSZ3 : par defaults "SSZ3" = 6903 / 10000 := rfl
theorem d_SSZ4 : par defaults "SSZ4" = -(3523 / 5000) := rfl

theorem hasKeys_default (opt : Bool) : HasKeys defaults opt := by
  cases opt
  · unfold HasKeys
    decide +kernel
  · unfold HasKeys
    decide +kernel

end Lumos.Tyre
