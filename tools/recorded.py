"""Compare a planned path that is recorded in a notebook with the formulas of the model.

Reads /repo/notebooks/iterative_grid_refining_plots.ipynb as text.  The forward kinematics is
`dhMat` and `kukaRobot` of the Lean model, written out in floating point.
"""
import json
import math
import re

PATH = "/repo/notebooks/iterative_grid_refining_plots.ipynb"
KUKA = [(0.18, math.pi / 2, 0), (0.6, 0, 0), (0, math.pi / 2, 0),
        (0, -math.pi / 2, 0.62), (0, math.pi / 2, 0), (0, 0, 0.115)]


def dh(a, alpha, d, theta):
    c, s = math.cos(theta), math.sin(theta)
    ca, sa = math.cos(alpha), math.sin(alpha)
    return [[c, -s * ca, s * sa, a * c], [s, c * ca, -c * sa, a * s],
            [0, sa, ca, d], [0, 0, 0, 1]]


def mul(A, B):
    return [[sum(A[i][k] * B[k][j] for k in range(4)) for j in range(4)] for i in range(4)]


def flange(q):
    T = [[float(i == j) for j in range(4)] for i in range(4)]
    for (a, alpha, d), qi in zip(KUKA, q):
        T = mul(T, dh(a, alpha, d, qi))
    return [T[i][3] for i in range(3)]


def recorded():
    for cell in json.load(open(PATH))["cells"]:
        src = "".join(cell["source"])
        if "path10000 = " in src:
            numbers = re.findall(r"-?\d\.\d+e[+-]\d+", src[src.index("path10000"):])
            flat = [float(x) for x in numbers]
            cost = float(re.search(r"cost10000 = ([\d.]+)", src).group(1))
            return [flat[i:i + 6] for i in range(0, len(flat), 6)], cost


path, cost = recorded()
worst = 0.0
for i, q in enumerate(path):
    want = (0.8, -0.2 + 0.4 * i / 14, 0.2)
    worst = max(worst, max(abs(x - y) for x, y in zip(flange(q), want)))
steps = [[abs(x - y) for x, y in zip(p, q)] for p, q in zip(path, path[1:])]
print("configurations:", len(path))
print("largest distance from path_ori_free:", worst)
print("sum of absolute changes:", sum(map(sum, steps)), "recorded:", cost)
print("sum of squared changes:", sum(x * x for s in steps for x in s))
