import Verif.Model.Result
import Verif.Model.VTable
/-!
# Slots of virtual methods (include/mockutils/VTUtils.hpp, include/mockutils/VirtualOffestSelector.hpp,
include/mockutils/gcc/is_simple_inheritance_layout.hpp)
-/
namespace FakeIt

/-! ## Class hierarchies and the compiler's layout -/

/-- A class: its virtual function declarations in order (`none`: the destructor; methods are identified by name and signature) and its direct bases (taken as given by include/mockutils/VTUtils.hpp 30-53, 67-76). -/
inductive CppClass where
  | mk (decls : List (Option Nat)) (bases : List CppClass)

/-- Declarations (accessor) (taken as given by include/mockutils/VTUtils.hpp 30-53, 67-76). -/
def CppClass.decls : CppClass → List (Option Nat)
  | .mk d _ => d

/-- `std::tr2::direct_bases<T>::type` (used in include/mockutils/gcc/is_simple_inheritance_layout.hpp 24, 32). -/
def CppClass.bases : CppClass → List CppClass
  | .mk _ b => b

/-- `has_one_base` (include/mockutils/gcc/is_simple_inheritance_layout.hpp 14-29). -/
def hasOneBase : List CppClass → Bool
  | [] => true
  | [.mk _ bases] => hasOneBase bases
  | _ :: _ :: _ => false

/-- `is_simple_inheritance_layout` (include/mockutils/gcc/is_simple_inheritance_layout.hpp 31-33). -/
def isSimpleInheritanceLayout (c : CppClass) : Bool := hasOneBase c.bases

/-- What a slot of the table is for (taken as given by include/mockutils/VTUtils.hpp 30-53, 67-76). -/
inductive SlotUse where
  | method (f : Nat)
  | dtor
  | deletingDtor
  deriving DecidableEq

/-- The slots a declaration needs: with gcc and clang a destructor has two, with Visual C++ one (the compilers' binary interface, not code of the
library; include/mockutils/gcc/VirtualTable.hpp 107-115 and include/mockutils/mscpp/VirtualTable.hpp 228-231 rely on it). -/
def declSlots (abi : Abi) : Option Nat → List SlotUse
  | some f => [.method f]
  | none =>
    match abi with
    | .itanium => [.dtor, .deletingDtor]
    | .msvc => [.dtor]

/-- The slot by which a declaration recognises that it overrides (the compilers' binary interface) (taken as given by include/mockutils/VTUtils.hpp 30-53, 67-76). -/
def declKey : Option Nat → SlotUse
  | some f => .method f
  | none => .dtor

/-- Adding declarations to a table: overriding functions keep the slot of the overridden one (the compilers' binary interface) (taken as given by include/mockutils/VTUtils.hpp 30-53, 67-76). -/
def addDecls (abi : Abi) : List SlotUse → List (Option Nat) → List SlotUse
  | t, [] => t
  | t, d :: ds =>
    if declKey d ∈ t then addDecls abi t ds
    else addDecls abi (t ++ declSlots abi d) ds

/-- The virtual table of a class whose hierarchy is a chain; the table of the first base for other hierarchies, which the library rejects (the compilers'
binary interface) (taken as given by include/mockutils/VTUtils.hpp 30-53, 67-76). -/
def CppClass.table (abi : Abi) : CppClass → List SlotUse
  | .mk decls [] => addDecls abi [] decls
  | .mk decls (b :: _) => addDecls abi (b.table abi) decls

/-- The slot through which a call of `u` on an object of static type `c` is dispatched: the first slot for it (taken as given by include/mockutils/VTUtils.hpp 30-53, 67-76). -/
def CppClass.slot (abi : Abi) (c : CppClass) (u : SlotUse) : Option Nat := (c.table abi).findIdx? (· == u)

/-! ## Probing for the slot -/

/-- The answers of the probe functions `offset0`, `offset1`, ... of `VirtualOffsetSelector`, in the order of their declaration
(include/mockutils/VirtualOffestSelector.hpp 12-4028). -/
def probes : List Nat :=
  [
   0, 1, 2, 3, 4, 5, 6, 7, 8, 9, 10, 11, 12, 13, 14, 15, 16, 17, 18, 19, 20, 21, 22, 23, 24,
   25, 26, 27, 28, 29, 30, 31, 32, 33, 34, 35, 36, 37, 38, 39, 40, 41, 42, 43, 44, 45, 46, 47, 48, 49,
   50, 51, 52, 53, 54, 55, 56, 57, 58, 59, 60, 61, 62, 63, 64, 65, 66, 67, 68, 69, 70, 71, 72, 73, 74,
   75, 76, 77, 78, 79, 80, 81, 82, 83, 84, 85, 86, 87, 88, 89, 90, 91, 92, 93, 94, 95, 96, 97, 98, 99,
   100, 101, 102, 103, 104, 105, 106, 107, 108, 109, 110, 111, 112, 113, 114, 115, 116, 117, 118, 119, 120, 121, 122, 123, 124,
   125, 126, 127, 128, 129, 130, 131, 132, 133, 134, 135, 136, 137, 138, 139, 140, 141, 142, 143, 144, 145, 146, 147, 148, 149,
   150, 151, 152, 153, 154, 155, 156, 157, 158, 159, 160, 161, 162, 163, 164, 165, 166, 167, 168, 169, 170, 171, 172, 173, 174,
   175, 176, 177, 178, 179, 180, 181, 182, 183, 184, 185, 186, 187, 188, 189, 190, 191, 192, 193, 194, 195, 196, 197, 198, 199,
   200, 201, 202, 203, 204, 205, 206, 207, 208, 209, 210, 211, 212, 213, 214, 215, 216, 217, 218, 219, 220, 221, 222, 223, 224,
   225, 226, 227, 228, 229, 230, 231, 232, 233, 234, 235, 236, 237, 238, 239, 240, 241, 242, 243, 244, 245, 246, 247, 248, 249,
   250, 251, 252, 253, 254, 255, 256, 257, 258, 259, 260, 261, 262, 263, 264, 265, 266, 267, 268, 269, 270, 271, 272, 273, 274,
   275, 276, 277, 278, 279, 280, 281, 282, 283, 284, 285, 286, 287, 288, 289, 290, 291, 292, 293, 294, 295, 296, 297, 298, 299,
   300, 301, 302, 303, 304, 305, 306, 307, 308, 309, 310, 311, 312, 313, 314, 315, 316, 317, 318, 319, 320, 321, 322, 323, 324,
   325, 326, 327, 328, 329, 330, 331, 332, 333, 334, 335, 336, 337, 338, 339, 340, 341, 342, 343, 344, 345, 346, 347, 348, 349,
   350, 351, 352, 353, 354, 355, 356, 357, 358, 359, 360, 361, 362, 363, 364, 365, 366, 367, 368, 369, 370, 371, 372, 373, 374,
   375, 376, 377, 378, 379, 380, 381, 382, 383, 384, 385, 386, 387, 388, 389, 390, 391, 392, 393, 394, 395, 396, 397, 398, 399,
   400, 401, 402, 403, 404, 405, 406, 407, 408, 409, 410, 411, 412, 413, 414, 415, 416, 417, 418, 419, 420, 421, 422, 423, 424,
   425, 426, 427, 428, 429, 430, 431, 432, 433, 434, 435, 436, 437, 438, 439, 440, 441, 442, 443, 444, 445, 446, 447, 448, 449,
   450, 451, 452, 453, 454, 455, 456, 457, 458, 459, 460, 461, 462, 463, 464, 465, 466, 467, 468, 469, 470, 471, 472, 473, 474,
   475, 476, 477, 478, 479, 480, 481, 482, 483, 484, 485, 486, 487, 488, 489, 490, 491, 492, 493, 494, 495, 496, 497, 498, 499,
   500, 501, 502, 503, 504, 505, 506, 507, 508, 509, 510, 511, 512, 513, 514, 515, 516, 517, 518, 519, 520, 521, 522, 523, 524,
   525, 526, 527, 528, 529, 530, 531, 532, 533, 534, 535, 536, 537, 538, 539, 540, 541, 542, 543, 544, 545, 546, 547, 548, 549,
   550, 551, 552, 553, 554, 555, 556, 557, 558, 559, 560, 561, 562, 563, 564, 565, 566, 567, 568, 569, 570, 571, 572, 573, 574,
   575, 576, 577, 578, 579, 580, 581, 582, 583, 584, 585, 586, 587, 588, 589, 590, 591, 592, 593, 594, 595, 596, 597, 598, 599,
   600, 601, 602, 603, 604, 605, 606, 607, 608, 609, 610, 611, 612, 613, 614, 615, 616, 617, 618, 619, 620, 621, 622, 623, 624,
   625, 626, 627, 628, 629, 630, 631, 632, 633, 634, 635, 636, 637, 638, 639, 640, 641, 642, 643, 644, 645, 646, 647, 648, 649,
   650, 651, 652, 653, 654, 655, 656, 657, 658, 659, 660, 661, 662, 663, 664, 665, 666, 667, 668, 669, 670, 671, 672, 673, 674,
   675, 676, 677, 678, 679, 680, 681, 682, 683, 684, 685, 686, 687, 688, 689, 690, 691, 692, 693, 694, 695, 696, 697, 698, 699,
   700, 701, 702, 703, 704, 705, 706, 707, 708, 709, 710, 711, 712, 713, 714, 715, 716, 717, 718, 719, 720, 721, 722, 723, 724,
   725, 726, 727, 728, 729, 730, 731, 732, 733, 734, 735, 736, 737, 738, 739, 740, 741, 742, 743, 744, 745, 746, 747, 748, 749,
   750, 751, 752, 753, 754, 755, 756, 757, 758, 759, 760, 761, 762, 763, 764, 765, 766, 767, 768, 769, 770, 771, 772, 773, 774,
   775, 776, 777, 778, 779, 780, 781, 782, 783, 784, 785, 786, 787, 788, 789, 790, 791, 792, 793, 794, 795, 796, 797, 798, 799,
   800, 801, 802, 803, 804, 805, 806, 807, 808, 809, 810, 811, 812, 813, 814, 815, 816, 817, 818, 819, 820, 821, 822, 823, 824,
   825, 826, 827, 828, 829, 830, 831, 832, 833, 834, 835, 836, 837, 838, 839, 840, 841, 842, 843, 844, 845, 846, 847, 848, 849,
   850, 851, 852, 853, 854, 855, 856, 857, 858, 859, 860, 861, 862, 863, 864, 865, 866, 867, 868, 869, 870, 871, 872, 873, 874,
   875, 876, 877, 878, 879, 880, 881, 882, 883, 884, 885, 886, 887, 888, 889, 890, 891, 892, 893, 894, 895, 896, 897, 898, 899,
   900, 901, 902, 903, 904, 905, 906, 907, 908, 909, 910, 911, 912, 913, 914, 915, 916, 917, 918, 919, 920, 921, 922, 923, 924,
   925, 926, 927, 928, 929, 930, 931, 932, 933, 934, 935, 936, 937, 938, 939, 940, 941, 942, 943, 944, 945, 946, 947, 948, 949,
   950, 951, 952, 953, 954, 955, 956, 957, 958, 959, 960, 961, 962, 963, 964, 965, 966, 967, 968, 969, 970, 971, 972, 973, 974,
   975, 976, 977, 978, 979, 980, 981, 982, 983, 984, 985, 986, 987, 988, 989, 990, 991, 992, 993, 994, 995, 996, 997, 998, 999,
   1000]

/-- Calling the function in slot `k` of a `VirtualOffsetSelector`; beyond the table there is nothing (include/mockutils/VTUtils.hpp 34). -/
def callProbe (k : Nat) : R Nat := R.ofOption (probes[k]?)

/-- A pointer to a member function. With gcc and clang: one number, odd (one plus the byte offset of the slot, eight bytes per slot) for a virtual
function, the function's (even) address otherwise, and an adjustment of `this`. With Visual C++ the pointer refers to a thunk which calls through the
slot (taken as given by include/mockutils/VTUtils.hpp 30-53, 67-76). -/
inductive MemberPtr where
  | itanium (ptr : Nat) (adj : Int)
  | thunk (slot : Nat)
  | plain

/-- `&C::f` of a virtual function in slot `k` of a class with a simple layout (the compilers' binary interface) (taken as given by include/mockutils/VTUtils.hpp 30-53, 67-76). -/
def memberPtr (abi : Abi) (k : Nat) : MemberPtr :=
  match abi with
  | .itanium => .itanium (1 + 8 * k) 0
  | .msvc => .thunk k

/-- `&C::f`, if `f` is a virtual method of `C` (taken as given by include/mockutils/VTUtils.hpp 30-53, 67-76). -/
def CppClass.pointerTo (abi : Abi) (c : CppClass) (f : Nat) : Option MemberPtr := (c.slot abi (.method f)).map (memberPtr abi)

/-- `VTUtils::getOffset` (include/mockutils/VTUtils.hpp 30-35): the pointer is reinterpreted and called on a `VirtualOffsetSelector`. Calling something
that is not one of its functions is undefined. -/
def getOffset : MemberPtr → R Nat
  | .itanium ptr adj => if adj = 0 ∧ ptr % 2 = 1 then callProbe ((ptr - 1) / 8) else .ub
  | .thunk k => callProbe k
  | .plain => .ub

/-- `VTUtils::getDestructorOffset` (include/mockutils/VTUtils.hpp 40-53): `none` stands for the exception `NoVirtualDtor`. The destructor call on a
`VirtualOffsetSelector` is dispatched through the destructor's slot of `C`; `offsetSelctor.offset` is what the probe function found there stored. -/
def getDestructorOffset (abi : Abi) (c : CppClass) : R (Option Nat) :=
  match c.slot abi .dtor with
  | none => .done none
  | some k => do
    let o ← callProbe k
    .done (some o)

/-- The signature `void endOfVt()` (include/mockutils/VTUtils.hpp 70). The number is arbitrary; a mocked class may declare this method, too. -/
def endOfVt : Nat := 0

/-- `VTUtils::getVTSize` (include/mockutils/VTUtils.hpp 67-76): the slot of the virtual function `endOfVt` declared in a class derived from `C`, which
overrides `C`'s if there is one. -/
def getVTSize (abi : Abi) (c : CppClass) : R Nat :=
  match (CppClass.mk [some endOfVt] [c]).pointerTo abi endOfVt with
  | none => .ub
  | some p => getOffset p

end FakeIt
