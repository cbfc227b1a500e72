import json
P=[]
def p(title, statement, quant, why, anchors):
    P.append(dict(id="C%02d"%(len(P)+1), title=title, statement=statement, quantifier=quant, why_tests_cant=why, anchors=anchors))
SK="ocnn/octree/shuffled_key.py:"; OC="ocnn/octree/octree.py:"; PT="ocnn/octree/points.py:"; NN="ocnn/nn/"; UT="ocnn/utils.py:"; DS="ocnn/dataset.py:"; MD="ocnn/models/"; MO="ocnn/modules/"; PJ="projects/"

# ---- keys
p("Key encode/decode round trip",
  "For every depth from 0 to 16, all coordinates x, y, z in [0, 2^depth) and every batch index b in [0, 32768): key2xyz(xyz2key(x, y, z, b, depth), depth) returns exactly (x, y, z, b); without a batch argument the decoded batch index is 0.",
  "all depths 0..16, all in-range coordinates, all legal batch indices", "the domain has 2^63 points; the repo samples 10000 at depth 16 only", [SK+"xyz2key", SK+"key2xyz", SK+"KeyLUT"])
p("Key decode/encode round trip",
  "Every legal key (batch field in [0, 32768), 48-bit field smaller than 8^depth) is reproduced exactly by decoding it with key2xyz and re-encoding the result with xyz2key at the same depth, so keys and (cell, batch) pairs are in bijection.",
  "all depths 0..16 and all legal 63-bit keys", "2^63 keys", [SK+"xyz2key", SK+"key2xyz"])
p("Table-driven encoder equals the mathematical Morton code on all int64 inputs",
  "For every depth 0..16 and all 64-bit coordinates, including negative and oversized ones, xyz2key returns the z-order (Morton) interleaving of the coordinates reduced modulo 2^depth, with the batch index in the bits from 48 up; i.e. the 8-bit look-up tables implement the bit-by-bit definition.",
  "all depths 0..16, all int64 coordinate triples, all batch indices", "the look-up tables are combined in two depth-dependent branches (depth<=8 and depth>8); tests use depth 16 only", [SK+"xyz2key", SK+"KeyLUT.xyz2key"])
p("Keys are hierarchical",
  "For every cell at depth d+1 the key with its last three bits dropped (inside the 48-bit field) is the key at depth d of the cell (x//2, y//2, z//2) of the same batch, and the dropped bits equal 4*(x%2)+2*(y%2)+(z%2).",
  "all depths 0..15 and all cells", "needs every cell", [SK+"xyz2key", OC+"Octree.build_octree", OC+"Octree.octree_grow"])
p("Key order is batch-major and depth-first",
  "For legal keys at one depth: a node with smaller batch index always sorts before one with a larger batch index; and if the ancestor cell of one node sorts strictly before the ancestor cell of another node then so do the nodes, so every subtree occupies a contiguous range of the sorted keys.",
  "all depths, all pairs of legal keys and all ancestor levels", "pairs of 63-bit keys", [SK+"xyz2key", OC+"Octree.build_octree"])
p("Documented key limits are tight",
  "At the first value outside the documented limits the round trip really fails: batch index 32768 encodes to a negative key that decodes to a different batch index; a coordinate equal to 2^depth is silently encoded as coordinate 0; and for every depth above 16 some coordinates inside [0, 2^depth) make xyz2key raise an error (an index error up to depth 71, above which the bit mask itself does not fit an int64).",
  "all depths (coordinate limit, depth limit), all cells (batch limit)", "limit behaviour at every depth", [SK+"xyz2key", SK+"key2xyz"])
# ---- build
p("build_octree creates exactly the occupied nodes",
  "For every point cloud with coordinates in [-1, 1) (any size, duplicates allowed, any point order), every depth D in 1..16, every full_depth <= D and every batch size, build_octree succeeds and the non-empty nodes at each depth d in [full_depth, D] are exactly the cells of side 2^(1-d) that contain at least one input point of that sample; a depth-d node exists below full_depth iff its parent is non-empty.",
  "all point clouds in range, all depths, all full depths, all batch sizes", "the repo checks five stored shapes", [OC+"Octree.build_octree", OC+"Octree.octree_grow_full"])
p("build_octree returns each point's leaf",
  "The index vector returned by build_octree has one entry per input point and entry i is the position, among the non-empty finest nodes, of the node whose cell contains point i.",
  "all point clouds in range", "returned index never checked by tests", [OC+"Octree.build_octree"])
p("Octree layer invariants after building",
  "After build_octree: at every depth the keys are strictly increasing; nnum is the number of nodes; nnum_nempty the number of nodes with a non-negative child index; child indices of the non-empty nodes are 0,1,2,... in node order and -1 for empty nodes; the children of the i-th non-empty node are exactly nodes 8i..8i+7 of the next layer, in child-code order.",
  "all point clouds, depths, full depths, batch sizes", "structural invariant over all inputs", [OC+"Octree.build_octree", OC+"Octree.nempty_mask", OC+"Octree.key"])
p("Full layers are dense",
  "For every d <= full_depth the layer contains every one of the 8^d cells of every sample exactly once, ordered by sample and then by key; all nodes of layers with d < full_depth are marked non-empty.",
  "all octrees obtained from build_octree or init_octree", "all sizes", [OC+"Octree.octree_grow_full", OC+"init_octree"])
p("Leaf signals are averages over the points of the leaf",
  "After build_octree the stored position (feature) of each non-empty finest node is the arithmetic mean of the rescaled positions (features) of exactly the input points lying in that node; the total over nodes of count times mean equals the total over all points.",
  "all point clouds in range, all feature widths", "tests only check nodes holding a single point", [OC+"Octree.build_octree", UT+"scatter_add"])
p("Leaf averages stay inside their node",
  "The averaged position stored for a non-empty finest node lies in the half-open cell of that node, so re-building an octree from the averaged points yields the same keys at every depth.",
  "all point clouds in range", "convexity argument over all inputs", [OC+"Octree.build_octree", OC+"Octree.to_points"])
p("build_octree does not depend on point order or duplicates",
  "Permuting the input points leaves keys, children, node counts and averaged signals unchanged; repeating input points leaves keys, children and node counts unchanged.",
  "all point clouds and all permutations", "n! orders", [OC+"Octree.build_octree"])
p("Points on the upper face of the cube are placed in their own cell",
  "The class documents the legal range as the closed cube [-1, 1]; every legal point should be stored in a node adjacent to it.",
  "all points in the closed cube", "measure-zero boundary is never hit by random tests", [OC+"Octree.build_octree", SK+"xyz2key"])
p("Building a batch equals merging single octrees",
  "For every list of point clouds, build_octree on merge_points(list) gives the same keys, children, nnum, nnum_nempty and averaged signals at every depth as merge_octrees applied to the octrees built from the individual clouds.",
  "all non-empty lists of at least two in-range point clouds, all depths", "tests compare one pair of shapes", [OC+"merge_octrees", PT+"merge_points", OC+"Octree.build_octree"])
p("merge_octrees keeps every sample intact",
  "In the merged octree, the nodes of sample i at any depth form the contiguous block given by the per-sample node counts, with the same cells and the same emptiness as octree i, batch index i, and child indices shifted by the number of non-empty nodes of earlier samples; batch_nnum records each sample's counts; the merged octree again satisfies all layer invariants.",
  "all non-empty lists of single-sample octrees of equal depth and full depth", "all list lengths and shapes", [OC+"merge_octrees"])
p("merge_octrees of already batched octrees",
  "merge_octrees documents its input as a list of octrees with no restriction on their batch size; merging should keep different samples apart.",
  "all lists of octrees", "tests merge single octrees only", [OC+"merge_octrees"])
# ---- split / grow
p("octree_split numbers the split nodes",
  "After octree_split(split, d) with a 0/1 vector, node i is non-empty iff split[i]=1, child indices are consecutive in node order and nnum_nempty is the number of ones; if all entries are 0 (and the layer is not empty) exactly the first node is made non-empty.",
  "all 0/1 vectors of any length", "2^n vectors", [OC+"Octree.octree_split", UT+"cumsum"])
p("Any sequence of predicted splits yields a well-formed octree",
  "Starting from init_octree and, for d = full_depth..depth, applying octree_split with arbitrary 0/1 predictions followed by octree_grow(d+1), never raises, satisfies all layer invariants at every step and leaves correct neighbour tables at every depth; every layer is non-empty.",
  "all depths, full depths >= 0, batch sizes >= 1 and all adaptive prediction sequences", "all decoder outputs", [OC+"Octree.octree_split", OC+"Octree.octree_grow", OC+"init_octree", MD+"autoencoder.py:AutoEncoder.decoder"])
p("Replaying an octree's own splits reproduces it",
  "Starting from init_octree and splitting each layer according to the emptiness of a given well-formed octree's layer (each layer having at least one non-empty node) reproduces that octree's keys, children and node counts at every depth.",
  "all well-formed octrees", "test replays one stored octree", [OC+"Octree.octree_split", OC+"Octree.octree_grow", OC+"Octree.octree_grow_full"])
# ---- neighbours
p("Neighbour tables are exact",
  "For every well-formed octree, after construct_all_neigh, entry k of row i at depth d is j >= 0 iff node j belongs to the same sample as node i and its cell is the cell of node i displaced by the k-th offset of {-1,0,1}^3; it is -1 iff the displaced cell is outside the cube or is not a node of the octree.",
  "all well-formed octrees with full_depth >= 1, all depths 1..16, all batch sizes, all nodes and all 27 offsets", "tests compare one stored octree", [OC+"Octree.construct_neigh", OC+"Octree.construct_all_neigh", OC+"Octree.reset"])
p("Neighbour relation is symmetric and stays inside a sample",
  "Entry 13 of row i is i; if entry k of row i is j >= 0 then entry 26-k of row j is i; i and j have the same batch index.",
  "all well-formed octrees, nodes and offsets", "all inputs", [OC+"Octree.construct_neigh"])
p("Kernel look-ups select the right offsets",
  "get_neigh with kernel 'abc' returns exactly the columns whose offsets are allowed by the kernel shape (size 3 allows -1,0,1; size 1 allows 0; size 2 allows 0,1), in row-major order of the kernel; for stride 2 row i is the row of node 8i; unsupported kernels and strides raise.",
  "all eight kernels, both strides, all octrees, any other kernel string or stride", "tables are hand-written constants", [OC+"Octree.get_neigh", OC+"Octree.reset"])
p("Non-empty neighbourhoods are the neighbourhoods of the sub-list of non-empty nodes",
  "get_neigh(nempty=True, stride=1) row i, column k is the rank among non-empty nodes of the node displaced by offset k from the i-th non-empty node, or -1 if that node does not exist or is empty.",
  "all well-formed octrees, depths, kernels", "all inputs", [OC+"Octree.get_neigh"])
p("Queries do not modify the octree",
  "get_neigh (any kernel, stride and nempty flag), merge_octrees and the search functions leave every tensor already held by the octree(s) unchanged, although they assign into tensors in place.",
  "all octree states, all arguments", "aliasing through tensor views", [OC+"Octree.get_neigh", OC+"merge_octrees", OC+"Octree.search_key"])
p("Search finds exactly the matching node",
  "search_key(query, depth, nempty) returns for each query the unique position whose key equals the query if there is one and -1 otherwise, for all queries including ones smaller or larger than every key and for layers with no node; search_xyzb does the same for in-range coordinates.",
  "all layers with strictly increasing keys, all query vectors", "all inputs, both boundary cases", [OC+"Octree.search_key", OC+"Octree.search_xyzb"])
p("xyzb, key and batch_id agree",
  "For every well-formed octree, xyzb(depth, nempty) returns cells inside [0, 2^depth) and batch indices inside [0, batch_size), batch_id equals the fourth component of xyzb, encoding xyzb gives key, and looking up xyzb with search_xyzb returns 0,1,2,...",
  "all well-formed octrees, depths and nempty flags", "all inputs", [OC+"Octree.xyzb", OC+"Octree.key", OC+"Octree.batch_id", OC+"Octree.search_xyzb"])
p("construct_all_neigh works for every legal full_depth",
  "construct_all_neigh should succeed on every octree produced by build_octree, for every full_depth >= 0.",
  "all octrees, all full depths", "full_depth = 0 is never tested", [OC+"Octree.construct_all_neigh", OC+"Octree.construct_neigh"])
p("Re-using an Octree object for another point cloud",
  "After a second build_octree on the same object the octree should describe the second point cloud only, whatever was built before.",
  "all pairs of point clouds, all histories of builds", "histories", [OC+"Octree.build_octree", OC+"Octree.reset"])
# ---- nn
p("octree_pad and octree_depad are inverse on non-empty nodes",
  "depad(pad(x, v)) = x for every feature tensor with one row per non-empty node; pad(depad(y), v) equals y on non-empty nodes and v on empty nodes; the padded tensor has nnum rows.",
  "all octrees, depths, feature tensors and fill values", "all inputs", [NN+"octree_pad.py:octree_pad", NN+"octree_pad.py:octree_depad"])
p("octree_pad rejects tensors of the wrong height",
  "octree_pad should raise when the number of input rows differs from the number of non-empty nodes.",
  "all octrees, all tensor heights", "silent broadcasting of one-row tensors", [NN+"octree_pad.py:octree_pad"])
p("octree2col gathers the displaced cells",
  "octree2col(data)[i,k] is the feature row of the node at offset k from node i when that node exists (and is non-empty if nempty), otherwise zero.",
  "all well-formed octrees, kernels, strides, nempty flags, feature tensors", "all inputs", [NN+"octree2col.py:octree2col"])
p("col2octree is the adjoint of octree2col",
  "For all data x and column tensors y: <octree2col(x), y> = <x, col2octree(y)> (exact arithmetic).",
  "all octrees, kernels, strides, flags, tensors over any commutative ring", "linear-algebra identity over all tensors", [NN+"octree2col.py:octree2col", NN+"octree2col.py:col2octree", UT+"scatter_add"])
p("Convolution equals its mathematical definition",
  "OctreeConv output at row i is the sum over kernel offsets k of W_k applied to the feature of the node at offset k (absent nodes contribute zero), plus bias; with stride 2 rows correspond to the non-empty parents and (nempty=False) empty parents receive zero.",
  "all well-formed octrees, kernels, strides, flags, weights and data", "all inputs", [NN+"octree_conv.py:OctreeConv", NN+"octree_conv.py:OctreeConvBase.forward_gemm"])
p("Memory-bounded convolution equals direct convolution",
  "For every max_buffer that can hold one row (max_buffer >= kernel volume * channels) the chunked forward pass, backward pass and weight gradient give exactly the same result as the unchunked one; the chunks partition the rows, no chunk is empty when there is at least one row, and the temporary buffer never exceeds max_buffer elements.",
  "all row counts, kernel sizes, channel counts and buffer limits", "integer-rounding corner cases for every combination", [NN+"octree_conv.py:OctreeConvBase.setup", NN+"octree_conv.py:OctreeConvBase.forward_gemm", NN+"octree_conv.py:OctreeConvBase.backward_gemm", NN+"octree_conv.py:OctreeConvBase.weight_gemm"])
p("Any positive max_buffer is accepted",
  "OctreeConv should work for any positive max_buffer.",
  "all row counts, channel counts and positive buffer limits", "tests use 2e4 and 2e8", [NN+"octree_conv.py:OctreeConvBase.setup"])
p("Convolution gradients are exact",
  "For every upstream gradient g: <conv(x; W), g> = <x, grad_x> and <conv(x; W), g> = <W, grad_W>, where grad_x and grad_W are what the backward pass returns; since conv is bilinear these are the exact derivatives, for every chunking.",
  "all neighbour tables, data, weights, gradients, buffer limits", "gradient identity over all tensors", [NN+"octree_conv.py:OctreeConvFunction", NN+"octree_conv.py:OctreeConvBase.backward_gemm", NN+"octree_conv.py:OctreeConvBase.weight_gemm"])
p("Deconvolution is the transpose of convolution and has exact gradients",
  "<octree_deconv(x; W), y> = <x, octree_conv(y; W)> for the same neighbourhood, and the backward pass of octree_deconv returns the exact gradients for data and weights.",
  "all neighbour tables, data, weights, buffer limits", "identity over all tensors", [NN+"octree_conv.py:OctreeDeconvFunction", NN+"octree_conv.py:OctreeDeconv"])
p("Depth-wise convolution is the diagonal case of convolution",
  "OctreeDWConv with weights w equals OctreeConv whose kernel matrices are diag(w_k), for output, data gradient and weight gradient.",
  "all neighbour tables, tensors, buffer limits", "identity over all tensors", [NN+"octree_dwconv.py:OctreeDWConvBase", NN+"octree_dwconv.py:OctreeDWConvFunction"])
p("Group convolution is the block-diagonal case of convolution",
  "OctreeGroupConv equals a single OctreeConv whose kernel matrices are block-diagonal with the per-group weights; it raises unless the group count divides both channel counts.",
  "all group counts, tensors and octrees", "no test exists", [NN+"octree_gconv.py:OctreeGroupConv"])
p("Convolution layers never hit a shape error on well-formed octrees",
  "On every well-formed octree with neighbour tables, OctreeConv and OctreeDeconv with stride 1 or 2 accept a tensor whose height is the documented node count and return a tensor whose height is the documented node count of the output depth.",
  "all well-formed octrees, strides, flags, depths", "boundary at full_depth for all octrees", [NN+"octree_conv.py:OctreeConvBase.setup", NN+"octree_conv.py:OctreeConv", NN+"octree_conv.py:OctreeDeconv"])
p("Max pooling takes the maximum over the children",
  "octree_max_pool at depth d gives each non-empty node of depth d-1 the channel-wise maximum over its (non-empty, if nempty) children, and with nempty=False gives 0 to empty nodes; the returned indices are the child codes of the first maximal child.",
  "all well-formed octrees, depths, tensors", "all inputs", [NN+"octree_pool.py:octree_max_pool"])
p("Max unpooling puts values back where they came from",
  "octree_max_unpool(octree_max_pool(x)) equals x at each channel's maximal child and 0 at the other children; pooling it again returns the pooled values when they are non-negative.",
  "all well-formed octrees, tensors, flags", "all inputs", [NN+"octree_pool.py:octree_max_unpool", NN+"octree_pool.py:octree_max_pool"])
p("Max pooling of finite features is finite",
  "octree_max_pool(nempty=True) should return finite values for finite features; it does wherever every non-empty parent has a non-empty child.",
  "all octrees, depths and finite features", "occurs only at or above full_depth, or after all-empty predictions", [NN+"octree_pool.py:octree_max_pool"])
p("Average pooling output has the height of the pooled layer",
  "octree_avg_pool with stride 2 should return one row per node of depth d-1 (like octree_max_pool and OctreeConv).",
  "all octrees, depths, flags", "test uses a full layer where both counts agree", [NN+"octree_pool.py:octree_avg_pool"])
p("Average pooling averages the existing neighbours",
  "Row i of octree_avg_pool is the sum of the features of the existing (non-empty, if nempty) neighbours in the kernel divided by (their number + 1e-8); in particular for features in [0, m] it lies in [0, m].",
  "all octrees, kernels, strides, tensors", "all inputs", [NN+"octree_pool.py:octree_avg_pool"])
p("Global pooling is the per-sample mean",
  "octree_global_pool returns for each sample the mean of the rows whose batch index is that sample, and 0 for samples without rows.",
  "all batch index vectors, tensors", "all inputs incl. empty samples", [NN+"octree_pool.py:octree_global_pool"])
p("octree2voxel is exact",
  "octree2voxel writes each node's feature at its own (batch, x, y, z) cell, zero elsewhere, with no two nodes writing to the same cell and no index out of range.",
  "all well-formed octrees, depths, flags, tensors", "all inputs", [NN+"octree2vox.py:octree2voxel"])
p("octree_align copies features between matching nodes",
  "octree_align(value, A, B, d) gives each node of B the feature of the node of A with the same key and 0 if A has no such node, for octrees A with at least one node at that depth; aligning an octree with itself is the identity; aligning with another octree and back keeps the features of the nodes both have and sets the others to 0.",
  "all pairs of well-formed octrees, tensors", "all inputs incl. out-of-range queries", [NN+"octree_align.py:octree_align", NN+"octree_align.py:search_value"])
p("Nearest-neighbour interpolation is exact",
  "For query points in [0, 2^depth)^3 and an existing sample, octree_nearest_pts returns the feature of the node whose cell contains the point, or 0 when there is no such node.",
  "all well-formed octrees, query points, flags", "all inputs", [NN+"octree_interp.py:octree_nearest_pts"])
p("bound_check removes out-of-range queries",
  "With bound_check=True, query points outside [0, 2^depth) get 0 in octree_nearest_pts.",
  "all query points", "all inputs", [NN+"octree_interp.py:octree_nearest_pts"])
p("Nearest upsampling copies the parent",
  "octree_nearest_upsample gives each node of depth d+1 the feature of its parent; it agrees with octree_nearest_pts evaluated at the node centres; upsampling over several levels at once (OctreeUpsample nearest with target_depth) equals repeated one-level upsampling.",
  "all well-formed octrees, depths, tensors, flags", "all inputs", [NN+"octree_interp.py:octree_nearest_upsample", NN+"octree_interp.py:OctreeUpsample"])
p("Linear interpolation weights",
  "In octree_linear_pts the eight corner weights are non-negative and sum to one; the output is the weighted sum over the existing corner nodes divided by (their total weight + 1e-12), so a point with no existing corner gets 0 and a point at a node centre gets that node's feature divided by (1 + 1e-12).",
  "all query points, octrees, tensors (exact rational arithmetic)", "all inputs", [NN+"octree_interp.py:octree_linear_pts"])
p("Linear interpolation uses only nodes adjacent to the query point",
  "The output of octree_linear_pts at an in-range point should depend only on nodes whose centre is within one cell of the point.",
  "all in-range query points, all octrees, default arguments", "only within half a cell of the cube boundary", [NN+"octree_interp.py:octree_linear_pts", SK+"xyz2key", MD+"unet.py:UNet.forward"])
p("OctreeInterp leaves the query points alone",
  "Calling OctreeInterp twice with the same query tensor should give the same result.",
  "all call histories", "needs repeated calls with one tensor", [NN+"octree_interp.py:OctreeInterp.forward"])
p("Group/instance normalisation is per sample",
  "The OctreeGroupNorm output on the nodes of one sample depends only on that sample's features (equal to normalising the sample alone), OctreeInstanceNorm is the case of one channel per group, and the constructor rejects channel counts not divisible by the group count.",
  "all batches, tensors, group counts", "all inputs", [NN+"octree_norm.py:OctreeGroupNorm", NN+"octree_norm.py:OctreeInstanceNorm"])
p("DropPath keeps or drops whole samples",
  "In evaluation mode or with drop_prob <= 0 OctreeDropPath is the identity; in training mode with 0 < drop_prob <= 1 every sample's rows are either all zero or all multiplied by the same factor (1/keep_prob when scaling, else 1).",
  "all random draws in [0,1), all batches", "all random draws", [NN+"octree_drop.py:OctreeDropPath.forward"])
p("Batching does not change results",
  "Running convolution or pooling on a merged octree and taking the rows of sample i gives the same as running it on octree i alone.",
  "all lists of single-sample octrees, layers, tensors, weights", "all batch compositions", [OC+"merge_octrees", OC+"Octree.construct_all_neigh", NN+"octree_conv.py:OctreeConv", NN+"octree_pool.py:octree_max_pool"])
# ---- points
p("Slicing and clipping keep attributes aligned",
  "Points[mask] and Points.clip keep exactly the points selected by the mask (for clip: strictly inside (min+esp, max-esp)), in order, with the normals, features, labels and batch indices of the same points; clip returns the mask and is idempotent.",
  "all point clouds and boxes", "all inputs", [PT+"Points.clip", PT+"Points.__getitem__", PT+"Points.inbox_mask"])
p("merge_points concatenates",
  "merge_points keeps all points with their attributes in order, batch_id of each point is the position of its cloud, batch_npt lists the sizes, and splitting by batch_npt recovers the clouds.",
  "all lists of point clouds with the same attributes", "all inputs", [PT+"merge_points"])
p("Points.rotate is an isometry",
  "For all angles the point and normal rows are multiplied by one orthogonal matrix of determinant 1: lengths, inner products between points, and point-normal inner products are preserved.",
  "all angles, all point clouds (exact arithmetic with cos^2+sin^2=1)", "all angles", [PT+"Points.rotate"])
p("Points.flip is an involution that commutes",
  "Flipping along the same axes twice restores the cloud; the order of axes is irrelevant; unknown axis letters raise.",
  "all axis strings, all clouds", "all strings", [PT+"Points.flip"])
p("Points.scale keeps normals orthogonal to the surface",
  "For every factor without zero component, if a tangent vector is orthogonal to a normal before scaling then the scaled tangent is orthogonal to the new normal; factor (1,1,1) changes nothing; a zero component raises.",
  "all factors, clouds", "all inputs", [PT+"Points.scale"])
p("Points.normalize fits the cube",
  "After normalize(*bbox(), scale) with scale > 0 every coordinate lies in [-scale, scale] and the map is a similarity (one positive factor for all axes); bbox contains every point and is attained.",
  "all non-empty clouds", "all inputs", [PT+"Points.normalize", PT+"Points.bbox"])
p("orient_normal gives non-negative components",
  "After orient_normal('x'), ('y') or ('z') the chosen component of every normal is non-negative and every normal equals plus or minus the original; orient_normal('xyz') replaces every component by its absolute value.",
  "all normals, axes", "all inputs", [PT+"Points.orient_normal"])
p("orient_normal is idempotent",
  "Orienting a second time along the same axis should change nothing.",
  "all normals, axes", "normals with a zero component", [PT+"Points.orient_normal"])
p("Points accepts the documented batch_id forms",
  "check_input is written to accept batch_id of shape (N,) or (N,1); both should construct a valid object.",
  "all point clouds", "no test passes batch_id", [PT+"Points.check_input"])
p("Octree.to_points returns the averaged points",
  "to_points should return the averaged points of the non-empty finest nodes rescaled to [-1, 1], for every octree.",
  "all octrees", "no test calls to_points", [OC+"Octree.to_points", PT+"Points.check_input"])
p("Moving Points to another device keeps its metadata",
  "Points.to(device) should keep batch_size, so that a batched cloud can still be built after moving.",
  "all clouds, devices", "tests move single clouds only", [PT+"Points.to"])
p("Moving an octree to another device keeps its content",
  "Octree.to(device) returns an octree with the same keys, children, neighbours, signals and node counts (or the object itself on the same device).",
  "all octree states", "all inputs", [OC+"Octree.to"])
p("Data pipeline establishes build_octree's precondition",
  "Whatever flip, rotation, translation and scaling is drawn, Transform clips the points strictly inside (-0.99, 0.99) before building, so the in-range precondition of build_octree always holds and each kept point lies in its node.",
  "all random parameters, all clouds", "all random draws", [DS+"Transform.transform", PT+"Points.clip", OC+"Octree.build_octree"])
p("Collation yields a ready batch",
  "CollateBatch on a non-empty list of samples merges every entry whose name contains 'octree' into one batched octree with neighbour tables and keeps every other entry as the list of per-sample values in order (points merged only on request); values under a name containing 'label' are also stored as one tensor under 'label', where the last such name wins.",
  "all batches", "all inputs", [DS+"CollateBatch.__call__"])
p("Input features have the documented ranges",
  "get_input_feature returns the channels in the order N, D, L, P, F; local coordinates are in [-1/2, 1/2), global coordinates are in [-1, 1) and equal the averaged input point; with nempty=False empty nodes get 0.",
  "all octrees built from in-range clouds, all feature strings", "all inputs", [OC+"Octree.get_input_feature", MO+"modules.py:InputFeature"])
# ---- utils
p("scatter_add sums rows per index",
  "scatter_add along dim 0 returns, for each output row, the sum of the source rows whose index is that row (zero if none); the result does not depend on the order of (index, row) pairs; negative or too large indices raise.",
  "all index vectors, tensors", "all inputs", [UT+"scatter_add"])
p("Exclusive cumsum",
  "cumsum(exclusive=True) returns n+1 prefix sums starting with 0 and ending with the total.",
  "all vectors", "all inputs", [UT+"cumsum"])
p("Kernel size lists are normalised",
  "resize_with_last_val returns a list of exactly 3 entries extending the input with its last entry, is idempotent, and raises on lists longer than 3 or empty; list2str of the result is the kernel name used by get_neigh.",
  "all lists", "all inputs", [UT+"resize_with_last_val", UT+"list2str"])
# ---- networks
p("Networks are shape-correct on every octree",
  "UNet, ResNet, LeNet, HRNet and AutoEncoder forward passes never hit a height or width mismatch on any well-formed octree deep enough for their number of stages (UNet depth > stages, ResNet depth >= stages, HRNet depth >= min(stages, 4) + 2, LeNet depth = stages + 2 and no other, AutoEncoder 1 <= full_depth <= depth <= 9) and return one row per sample, query point or octant; the exception is training mode with exactly one row, which BatchNorm1d refuses. With update_octree the AutoEncoder returns a well-formed octree.",
  "all well-formed octrees, depths, stage numbers, nempty flags", "all octrees", [MD+"unet.py:UNet", MD+"resnet.py:ResNet", MD+"lenet.py:LeNet", MD+"hrnet.py:HRNet", MD+"autoencoder.py:AutoEncoder"])
p("SegNet is shape-correct with nempty=True",
  "SegNet should run with nempty=True on every well-formed octree deep enough for its stages.",
  "all well-formed octrees, stages", "no test", [MD+"segnet.py:SegNet"])
p("Every exported model and block can be constructed",
  "OUNet(...) and OctreeResBlock2(stride=2) should be constructible.",
  "all constructor arguments", "no test", [MD+"ounet.py:OUNet", MO+"resblocks.py:OctreeResBlock2"])
# ---- projects
p("Prediction aggregation puts scores back on the original points",
  "SegSolver.eval_step adds, for every epoch, each sample's probabilities at exactly the positions kept by that epoch's inbox mask and 0 at the clipped positions, so the aggregate at a point is the sum over the epochs in which it was kept.",
  "all numbers of epochs, masks, probabilities", "histories of epochs", [PJ+"segmentation.py:SegSolver.eval_step"])
p("IoU is a ratio in [0,1]",
  "IoU_per_shape returns intersections not larger than unions for every class and a mean IoU in [0, 1].",
  "all predictions and labels", "all inputs", [PJ+"segmentation.py:SegSolver.IoU_per_shape"])
p("ScanNet chunks cover the scene",
  "generate_chunks on a scene larger than the crop size should produce crops covering every vertex.",
  "all scenes", "scenes with negative coordinates", [PJ+"tools/seg_scannet.py:generate_chunks"])
p("ScanNet chunk predictions are merged per scene",
  "generate_output_seg should add the predictions of all chunks of one scene under the scene's name, for any number of chunks.",
  "all chunk counts", "scenes with more than ten chunks", [PJ+"tools/seg_scannet.py:generate_output_seg", PJ+"tools/seg_scannet.py:generate_chunks"])
# ---- appended as the model grew
p("Transposed convolution equals its mathematical definition",
  "OctreeDeconv returns, at each output node, the sum over the kernel offsets k and the input nodes t with (anchor of t) + offset k = that node of x_t W_k^T (plus the bias); with stride 2 the input lives one level above the output.",
  "all well-formed octrees, depths, kernels, strides, nempty flags, weights, buffers that hold one row", "the sum runs over all octree shapes; tests fix one", [NN+"octree_conv.py:OctreeDeconv", NN+"octree_conv.py:OctreeDeconvFunction"])
p("ScanNet labels survive the round trip",
  "Mapping raw ScanNet labels to training classes and back gives every raw label of the class table (20 or 200 classes) unchanged and 0 for all others; the training classes are smaller than the number of classes.",
  "all raw labels, both class tables", "2048 labels and tables of 21 and 201 entries", [PJ+"tools/seg_scannet.py:label_dict", PJ+"tools/seg_scannet.py:ilabel_dict", PJ+"tools/seg_scannet.py:process_scannet"])
p("Network predictions do not depend on the rest of the batch",
  "In evaluation mode LeNet, ResNet, HRNet, UNet, SegNet (where it runs) and AutoEncoder without octree update return for a merged batch of octrees exactly the concatenation of what they return for the octrees one by one, for every batch and all parameters.",
  "all mergeable batches of octrees, all inputs, parameters, depths, stage numbers, nempty flags, query points, interpolation methods", "batches and octree shapes are unbounded; composition of dozens of layers", [MD+"lenet.py:LeNet", MD+"resnet.py:ResNet", MD+"hrnet.py:HRNet", MD+"unet.py:UNet", MD+"segnet.py:SegNet", MD+"autoencoder.py:AutoEncoder"])
p("Teacher-forced and free-running decoding of the autoencoder agree when the predictions are right",
  "If the split logits that AutoEncoder.forward(octree, update_octree=False) returns predict exactly the non-empty octants of the octree at every depth, then forward(octree, update_octree=True) and decode_code of the same code generate an octree with the same keys, children and counters and return the same logits and signal. Conversely, decoding on the octree generated from a code returns exactly the logits and the signal of the generation.",
  "all well-formed octrees with a non-empty octant in every layer, depths up to 9, codes, parameters, training and evaluation mode", "training uses one mode and inference the other; the octree grows with the predictions", [MD+"autoencoder.py:AutoEncoder.decoder", MD+"autoencoder.py:AutoEncoder.decode_code", MD+"autoencoder.py:AutoEncoder.forward"])
p("Preparing a sample leaves the arrays of the dataset unchanged, so that every epoch sees the data of the file",
  "Transform.__call__ (preprocess and transform) of a sample does not change the numpy arrays of the sample: however often the same sample is prepared, with whatever random parameters, the result is that of arrays just read from the file.",
  "all samples, all preprocess methods (base class, ae_shapenet, image2shape, seg_shapenet, semantic_kitti), all transform settings, all sequences of random draws", "the arrays are shared with the tensors by torch.from_numpy; in-place methods are visible only when the same sample is used again", ["ocnn/dataset.py:Transform", "ocnn/octree/points.py:Points.flip", "ocnn/octree/points.py:Points.orient_normal", PJ+"datascts/ae_shapenet.py:ShapeNetTransform.preprocess", PJ+"datascts/seg_shapenet.py:ShapeNetTransform.preprocess", PJ+"datascts/semantic_kitti.py"])
p("The evaluation of the autoencoder returns one oriented point per leaf, on the plane that the signal describes",
  "AutoEncoderSolver.eval_step splits its result into one cloud per sample; each cloud has one point with normal per non-empty finest node of the sample, at the predicted distance from the centre of the node along the normalised predicted normal. For the ground-truth normal and displacement this is the point of the plane through the averaged point, orthogonal to the normal, that is next to the centre. A signal with a wrong number of rows is refused.",
  "all octrees, all network parameters, all batch sizes, all signals, all cells, all unit normals", "relates the decoder, the order of the nodes of a batch and the coordinates of the nodes; tests look at one reconstruction", [PJ+"autoencoder.py:AutoEncoderSolver.octree2pts", PJ+"autoencoder.py:AutoEncoderSolver.eval_step", MD+"autoencoder.py:AutoEncoder"])
p("Zero training error of the autoencoder means a right reconstruction",
  "AutoEncoderSolver.model_forward returns, for every depth, the proportion of nodes whose split is predicted correctly, and a regression loss that is 0 if and only if the predicted signal is the normal and displacement signal of the octree. If the accuracies are all 1 and the regression loss is 0, then eval_step, which sees only the code, returns for each sample exactly one point per cell occupied by its points, with the normal and displacement of the cell. A split loss below log 2 divided by the number of nodes implies accuracy 1.",
  "all point clouds, depths up to 9, full depths from 1 on, network parameters, input features", "relates two runs of the network with different control flow; holds only for the whole octree, not for sampled nodes", [PJ+"autoencoder.py:AutoEncoderSolver.compute_loss", PJ+"autoencoder.py:AutoEncoderSolver.model_forward", PJ+"autoencoder.py:AutoEncoderSolver.eval_step", MD+"autoencoder.py:AutoEncoder", "ocnn/octree/octree.py:Octree.build_octree"])
p("Generating shapes for a batch of codes gives what generating them one by one gives",
  "In evaluation mode, decode_code on the concatenation of the codes of several samples generates the octree that merge_octrees makes of the octrees generated from the single codes, with the logits and signals of the single runs one after the other. The same holds for Image2Shape with a batch of images. This fails if in some layer no node of a sample is predicted to have children: octree_split then adds the first node of the whole batch, not of each sample.",
  "all network parameters, batches up to 32768 samples, depths up to 9, codes", "two octrees that are generated by the network itself must agree; the failing case depends on what the other samples of the batch predict", [MD+"autoencoder.py:AutoEncoder.decode_code", MD+"autoencoder.py:AutoEncoder.decoder", MD+"image2shape.py:Image2Shape.forward", "ocnn/octree/octree.py:Octree.octree_split", "ocnn/octree/octree.py:merge_octrees"])
p("Image2Shape generates one shape per image, and zero training error means the right shapes",
  "Image2Shape(image, octree) with as many images as the octree has samples returns two logits per node of every layer from full_depth on and a signal for every non-empty finest node; with another number of images, or without octree, it raises. With update_octree=True it returns a well-formed octree with one sample per image. The numbers of the code of an image keep their order. If the split accuracies of model_forward are all 1 and its regression loss is 0, then eval_step, which sees only the images, returns for each image exactly one oriented point per cell occupied by the points of its sample. In evaluation mode, with an image encoder that treats images one by one, the outputs for an image on its octree do not depend on the rest of the batch.",
  "all image encoders, network parameters, code channels up to 7000000, depths up to 9, octrees, numbers of images", "quantifies over all encoders and octrees and relates two runs with different control flow", [MD+"image2shape.py:Image2Shape.forward", MD+"image2shape.py:Image2Shape.decoder", PJ+"image2shape.py:Image2ShapeSolver.model_forward", PJ+"image2shape.py:Image2ShapeSolver.eval_step"])
p("Convolution commutes with translations, reflections, exchange of axes and renumbering of samples",
  "If the cells of one octree are those of another moved by a motion of the voxel grid - a translation by whole cells, a reflection, an exchange of two axes, a renumbering of the samples - and the input features are moved with the cells, then octree convolution gives on every moved cell what it gave on the original cell, provided the kernel matrices are turned with the offsets (for translations and renumberings: the same matrices). For stride 2 the coarse cells must be moved compatibly. Octrees built from a point cloud and from the cloud translated by whole cells of some layer are such octrees, for that layer and all finer ones.",
  "all octrees, motions, kernels, features, weights, depths, point clouds", "relates two different octrees with different node orders, for all inputs; a test covers one cloud and one motion", [NN+"octree_conv.py:OctreeConv.forward", "ocnn/octree/octree.py:Octree.get_neigh", "ocnn/octree/octree.py:Octree.build_octree", "ocnn/octree/octree.py:Octree.construct_all_neigh"])
p("Translating the input by whole coarse voxels does not change what the networks predict",
  "If a point cloud is translated by a whole number of cells of some layer e >= full_depth and stays inside the cube, then ResNet and HRNet give the same logits, and UNet and SegNet give each translated query point the prediction of the original point, provided e is not finer than the coarsest layer the network works on (one coarser with nempty=False) and the input features are any of N, D, L, F (not the absolute positions P). The same holds for any two octrees of which one is the other moved by whole cells of level e, with the samples in another order: the rows of the logits are reordered accordingly. This holds in evaluation mode and, for ResNet, HRNet and UNet, in training mode, where batch normalization uses the statistics of the batch, if dropout draws the same numbers for a sample.",
  "all clouds, octrees, translations, sample orders, parameters, depths, stages, query points, both nempty flags", "relates two runs of whole networks on octrees with different keys, node orders and neighbour tables, for all weights; a test compares one cloud under one set of weights, up to rounding", [MD+"resnet.py:ResNet.forward", MD+"hrnet.py:HRNet.forward", MD+"unet.py:UNet.forward", MD+"segnet.py:SegNet.forward", "ocnn/octree/octree.py:Octree.build_octree", MO+"modules.py:InputFeature.forward"])
p("What the segmentation and classification programs predict for a sample does not depend on the batch it is in",
  "With the network in evaluation mode, the logits (and, for segmentation, the filtered labels) that the programs compute from a batch of point clouds - building one octree per cloud, merging them, constructing the neighbours, merging the clouds, computing the input features, running the configured network, and dropping the points whose label is not above the mask - are the concatenation of what they compute from the batches consisting of one cloud each. No step raises. Segmentation gives one row of nout logits per labelled point in the order of the points of the cloud; classification gives one row per cloud.",
  "all non-empty batches of non-empty clouds in the cube, all depths up to 16 and full depths from 1, all features, all five networks, all parameters, both nempty flags", "composes ten functions of four modules whose intermediate tables all differ between the batch and the single samples; a test compares one batch under one set of weights, and only up to rounding", [PJ+"segmentation.py:SegSolver.process_batch", PJ+"segmentation.py:SegSolver.model_forward", PJ+"classification.py:ClsSolver.forward", "ocnn/dataset.py:CollateBatch.__call__", "ocnn/octree/octree.py:merge_octrees"])
p("The segmentation metrics of a test epoch do not depend on how the samples are batched",
  "With the network in evaluation mode, the numbers of points of a batch that are predicted as and labelled with a class, predicted as or labelled with a class, and predicted correctly are the sums of those of the samples tested alone. The part mIoU reported at the end of a test epoch is the mean over the classes above the mask of the ratio of these totals over all clouds; it lies in [0, 1], is at most the fraction of the classes that occur (a class that is neither predicted nor labelled counts as 0), and two epochs over the same clouds in any order and grouping differ by at most 1e-10 times the difference of their numbers of batches.",
  "all test sets of non-empty clouds in the cube, all groupings and orders, all networks for segmentation, parameters, depths, features, masks and numbers of classes", "relates two runs over all samples with different batches, of which there are exponentially many; a test would have to compare floating point metrics of specific groupings", [PJ+"segmentation.py:SegSolver.test_step", PJ+"segmentation.py:SegSolver.result_callback", PJ+"segmentation.py:SegSolver.IoU_per_shape", PJ+"segmentation.py:SegSolver.accuracy"])
p("Rounding in single precision moves a point by at most 2^-24 before it is stored in its cell",
  "Octree.build_octree computes (points + 1) * 2^(depth-1) in float32. For every point of the legal range [-1, 1) each point is stored in a leaf of its sample whose cube contains the point moved by at most 2^-24 along each axis, at every depth; when all coordinates are multiples of 2^-23 the octree is that of exact arithmetic.",
  "all clouds with coordinates in [-1, 1), all depths up to 16, full depths and batch sizes", "the failing inputs are isolated float32 values, which random clouds practically never contain, and the claim bounds the error for all inputs", ["ocnn/octree/octree.py:Octree.build_octree", "ocnn/octree/shuffled_key.py:xyz2key"])
p("Predictions do not depend on the order of the points of a cloud",
  "Reordering the points of the clouds of a batch (together with their normals, features and labels) gives the same octree, hence the same classification logits; the segmentation program gives every labelled point a row of logits that depends only on the cloud and the position of the point, so the rows and labels are reordered with the points. This holds in training mode too, where batch normalization is computed over the points.",
  "all batches of legal clouds, all reorderings of each cloud, all networks, parameters, feature strings, interpolation methods and modes", "the space of orders is factorial in the number of points, and a dependency would only show for particular collisions of points in a leaf", ["projects/segmentation.py:SegSolver.model_forward", "projects/classification.py:ClsSolver.forward", "ocnn/octree/octree.py:Octree.build_octree", "ocnn/models/unet.py:UNet.forward", "ocnn/models/segnet.py:SegNet.forward"])
p("SemanticKITTI scans keep each point with its intensity and the class of its label",
  "KittiTransform gives every word of a label file the index (1 to 19, in the order of the list of kept classes) of the class to which the lower 16 bits belong, with the moving variant of a class counted as the class, and 0 for all other ids; the instance number in the upper 16 bits plays no role, also where it makes the word negative. An id above 259, an empty scan and a wrong number of labels raise. The points are the positions relative to the middle of the bounding box in units of 100 metres, moved by the augmentation; exactly those strictly inside (-0.99, 0.99)^3 are kept, in order, each with its own intensity and class. Without augmentation these are the points less than 99 metres from the middle along every axis.",
  "all 2^32 label words, all scans, all settings and draws of the augmentation", "there are 2^32 label words, and mixing up the rows of points, intensities and labels is invisible in shapes and types", ["projects/datascts/semantic_kitti.py:KittiTransform.preprocess", "projects/datascts/semantic_kitti.py:get_label_map", "ocnn/dataset.py:Transform.transform"])
p("A SemanticKITTI scan with a label file is read with its labels",
  "read_file of <dir>/velodyne/<scan>.bin returns the labels of <dir>/labels/<scan>.label if that file exists, and the label 0 for every point otherwise. This fails if the directory itself contains 'velodyne' or '.bin': the replacement changes the directory too, and the points silently become unlabelled.",
  "all directory and scan names, all contents", "tests run in one directory; the failure is silent and depends on where the user keeps the data", ["projects/datascts/semantic_kitti.py:read_file"])
p("The completion data keep the whole ground truth, normalised by one similarity",
  "The transform of the completion program accepts every non-empty cloud with one normal per point, whatever is drawn. The ground truth is the whole cloud in order with its normals, moved by one similarity that takes the middle of the bounding box to the origin and the largest extent (plus 1e-6) to 1.9; no coordinate exceeds 0.95, so that the later clipping drops nothing. The input consists of the chosen ground-truth points displaced by 0.0095 times the noise; only those outside (-0.99, 0.99)^3 are dropped, which needs noise of more than 4.2 standard deviations. Both octrees are well-formed and their non-empty leaves are exactly the cells with a point of their cloud.",
  "all clouds, depths up to 16, all draws of indices and noise", "a point lost by clipping depends on rare draws, and a wrong scale on the shape of the cloud", ["projects/datascts/completion.py:Transform.__call__", "ocnn/octree/points.py:Points.clip", "ocnn/octree/octree.py:Octree.build_octree"])
p("The augmented ScanNet colours are numbers between 0 and 1",
  "color_distort of non-empty colours in [0, 1] returns one colour in [0, 1] per point, and without jitter keeps the order of the values within a channel. This fails if a channel is constant: the contrast divides by zero and the whole channel becomes not-a-number, whatever is drawn. If no value exceeds 1/255, it raises AssertionError.",
  "all clouds of colours, all draws", "scans with a constant channel (grey or synthetic scenes, crops of one colour) are rare, and NaN features raise no exception", ["projects/datascts/scannet.py:color_distort"])
p("The elastic distortion moves the points little and smoothly",
  "elastic_distort accepts every non-empty cloud. A pass moves each point, in order, by at most the magnitude times the largest random number along every axis, and from point to point the displacement changes by at most 2/3 of that per grid spacing (in the sum norm), so that the grid covers all points and no point falls back to the fill value. Several passes move a point by at most the sum. With probability 0.05 nothing moves; the empty cloud raises.",
  "all clouds, grid spacings, magnitudes and random arrays", "a point at the border of the grid that is left out, or a jump between cells, needs particular positions", ["projects/datascts/scannet.py:elastic_distort"])
p("ScanNet scenes keep each point with its colour and label",
  "ScanNetTransform accepts every scene with one normal, colour and label per point (with augmentation: if the colours meet the conditions of C102). The points are the positions relative to the middle of the bounding box, and to the height 0.5, in units of 10.24 metres, with augmentation displaced by at most 0.2 B1 + 0.8 B2 for random numbers up to B1, B2, and moved by the transform; exactly those strictly inside (-0.99, 0.99)^3 are kept, in order, each with its own colour in [0, 1] and its own label. Without augmentation these are the points less than 10.1376 metres from the middle and between the heights -9.6376 and 10.6376.",
  "all scenes, settings and draws", "mixing up the rows of points, colours and labels is invisible in shapes and types, and augmentation is random", ["projects/datascts/scannet.py:ScanNetTransform.__call__", "ocnn/dataset.py:Transform.transform"])
p("The normals of ScanNet meshes are the area-weighted normals and turn with the scene",
  "For every mesh whose faces index its vertices, vertex_normal returns per vertex the sum of the area vectors of the faces at it over its length (plus 1e-8); degenerate faces and faces with repeated vertices count nothing, and the order of the faces plays no role. A vertex without faces gets 0, no normal is longer than 1. Rotating and shifting the vertices rotates the normals, in particular align_to_axis with a right-handed orthonormal matrix, which uses the first axisAlignment of the file and otherwise moves nothing.",
  "all meshes, all rigid motions", "repeated indices in a face and the in-place addition at several rows behave differently from the plain sum, which shows only for particular meshes", ["projects/tools/seg_scannet.py:vertex_normal", "projects/tools/seg_scannet.py:face_normal", "projects/tools/seg_scannet.py:align_to_axis"])
p("ScanNet200 labels come from the last group of a segment",
  "generate_point_labels200 gives each vertex the id of the last group that contains its segment: the id of the first row of the table with the name of the group if it is one of the 200 classes, else 0; vertices in no group get 0. Hence the labels map to training labels 0..200 and back without loss, and if no segment is in two groups, the order of the groups plays no role.",
  "all tables, segmentations and groups", "overlapping groups, duplicate and unlisted names are rare in the data, and a wrong label raises no exception", ["projects/tools/seg_scannet.py:generate_point_labels200"])
p("The ScanNet evaluation counts each labelled point once",
  "calc_iou prints the mean over the files of the share of right predictions and the mean over the classes of intersection over union, of the points whose true label is a class; for the IoU it plays no role how the points are spread over files or what is predicted elsewhere; it lies in [0, 1), and perfect predictions give 1 up to 1e-10. This fails if a class does not occur (it counts as 0, so perfect predictions get at most the share of the other classes), and if a file has no labelled point (the accuracy becomes not-a-number). No files raise ZeroDivisionError.",
  "all predictions and labels, in any number of files", "the benchmark contains all classes, so small subsets, where scores are silently too low, go unnoticed", ["projects/tools/seg_scannet.py:calc_iou"])
p("Saved point clouds are read back unchanged",
  "A cloud with byte colours and labels saved by save_ply, save_npz or save_points_to_ply, with any of the attributes, and read by ReadPly, ReadNpz or ReadFile has its points in order, positions and normals in single precision, colours and labels exactly, and only the attributes asked for; asking for an attribute that was not saved raises. ReadFile goes by what follows the last dot of the name.",
  "all clouds, sets of attributes and file names", "swapped or shifted columns keep all shapes and types", ["projects/tools/seg_scannet.py:save_ply", "projects/tools/seg_scannet.py:save_npz", "projects/tools/utils.py:save_points_to_ply", "projects/datascts/utils.py:ReadPly", "projects/datascts/utils.py:ReadNpz", "projects/datascts/utils.py:ReadFile"])
p("A processed ScanNet scene keeps position, normal, colour and label of every vertex",
  "process_scannet turns a training scene with one colour and one raw label per vertex into a file from which ReadPly reads, per vertex and in order, the (aligned) position, the normal of C105, the colour, and a class number smaller than the number of classes from which the raw label can be recovered (0 for labels that are not a class). Scenes whose last column is not constant raise AssertionError.",
  "all meshes, colours, raw labels, both tables of classes, with and without alignment", "the label overwrites a column of the colours' array and passes through a byte; errors keep shapes and types", ["projects/tools/seg_scannet.py:process_scannet"])
p("The part labels of ShapeNet are moved to 0, 1, ... per category",
  "The displacement used for a category is the number of part labels of the categories before it, so each of the 50 raw labels belongs to exactly one category; a text file with raw labels of its category is converted to a file that ReadPly reads with the points and normals in order (single precision) and labels 0, ..., n - 1 where n is the number of parts of the category.",
  "all categories, all clouds whose raw labels are those of their category", "the displacements are a table of constants next to another one; a wrong entry shifts labels of one category without an exception", ["projects/tools/seg_shapenet.py:txt_to_ply"])
p("Each ShapeNet part shape is in the list of its own category",
  "generate_filelist puts each shape of the official splits into the list of its category and no other, training and validation together, with the name of the converted file and the number of the category. This holds if no name of a shape contains the id of a category; else the shape is also put into the lists of the categories its name contains.",
  "all splits", "the category is found by substring search; names that contain ids of categories do not occur in small tests", ["projects/tools/seg_shapenet.py:generate_filelist"])
p("ModelNet40 lists give each file the number of its class",
  "get_filelist lists files that exist under the asked part and have the suffix, with the number of class names that come before theirs as label; with ratio 1 all of them; with a smaller ratio a part of the list, with at least one file of each class that has one; the result does not depend on the order in which the file system lists names; another number of classes than 40 raises AssertionError.",
  "all folders, suffixes, ratios in (0, 1] and all monotone roundings exact on integers", "labels of training and testing must agree though the folders are listed separately and in arbitrary order; tests see one file system", ["projects/tools/cls_modelnet.py:get_filelist"])
p("SemanticKITTI lists split the sequences into training, validation and test",
  "generate_file_list puts every scan of the sequences 00 to 21 into exactly one of train, val and test: 08 into val, the others up to 10 into train, the rest into test; train_val is train followed by val; nothing else is listed and the order in which the file system lists names plays no role.",
  "all contents of the folders", "a sequence in two lists or in none leaks or loses data without an exception", ["projects/tools/seg_kitti.py:generate_file_list"])
p("Image2Shape lists split the shapes that have images and points",
  "create_filelist lists a shape exactly if it has both renderings and points, never for both training and testing; of the n shapes of each category the first int(0.8 n) in order of names are for training; the order in which the file system lists names plays no role.",
  "all contents of the folders, all lists of categories without slashes", "overlap of training and testing shows only in scores that are too good", ["projects/tools/image2shape.py:create_filelist"])
p("Convolving only the non-empty nodes is convolving all nodes with zeros at the empty ones",
  "For features of the non-empty nodes, OctreeConv with nempty=True gives what one gets by octree_pad with zeros, OctreeConv with nempty=False and the same weights, and octree_depad; for all kernels and both strides, whatever the buffer sizes and methods of the two layers.",
  "all valid octrees, kernels, strides, weights and features", "the two settings use different neighbour tables; tests compare a few octrees", ["ocnn/nn/octree_conv.py:OctreeConv", "ocnn/nn/octree_pad.py:octree_pad", "ocnn/nn/octree_pad.py:octree_depad"])
p("Octree convolution is the convolution of the voxel grid at the nodes",
  "octree2voxel of the result of OctreeConv has, at each node, the value of the ordinary zero-padded 3D convolution of octree2voxel of the input (at the even positions of the finer grid for stride 2), and zero where there is no node; in layers up to full_depth it is the ordinary convolution everywhere.",
  "all valid octrees, kernels, strides, weights and features", "comparing with a dense convolution for all octrees is impossible; off-by-one errors at boundaries of samples or of the cube show only for some octrees", ["ocnn/nn/octree_conv.py:OctreeConv", "ocnn/nn/octree2vox.py:octree2voxel"])
p("Linear interpolation is exact for linear fields and stays in the range of the features",
  "If the features are an affine function of the centres of the nodes, OctreeInterp (linear) returns this function of the query point, up to the factor 1/(1 + 1e-12), wherever the cells around the point are nodes; this includes all interior points in layers up to full_depth. For all features, the results lie between the smallest and the largest feature or zero.",
  "all valid octrees, depths, query points and features", "a wrong corner or weight is hidden by averaging and shows only as a small blur", ["ocnn/nn/octree_interp.py:octree_linear_pts"])
p("A stack of convolutions sees only the neighbourhood of a node",
  "The result of n convolutions of stride 1, with arbitrary functions of the rows between them, at a node depends only on the features of nodes of the same sample at most n cells away along every axis.",
  "all valid octrees, numbers of layers, kernels, weights and features", "a wrong entry in a neighbour table would let far-away nodes influence a result, for some octrees only", ["ocnn/nn/octree_conv.py:OctreeConv", "ocnn/modules/modules.py:OctreeConvBnRelu"])
p("depth and full_depth of an octree only set its resolution",
  "Octrees built from one point cloud with different depths have the same nodes at every common depth; octrees with different full_depth have the same nodes below both full layers, the same non-empty nodes from there on and, for equal depth, the same leaf signals and point indices; adding points never removes a node and never empties one.",
  "all legal point clouds, depths and full depths", "two octrees must be compared at all depths for all clouds", [OC+"Octree.build_octree"])
p("scatter_add adds along the chosen dimension of a tensor of any rank",
  "scatter_add(src, index, dim, None, dim_size) with a one-dimensional index has the shape of src with dim_size (by default one more than the largest index) along dim, and its entry at (a, j, b) is the sum of the entries (a, k, b) of src with index[k] = j; negative dimensions count from the back; an index that is negative or too large is rejected.",
  "all ranks, shapes, dimensions, indices and values", "broadcasting of the index is tested only for matrices and the first dimension", [UT+"scatter_add", UT+"broadcast"])
p("Convolution weights are initialised by Xavier's rule for their layout",
  "xavier_uniform_ fills weights of shape (kdim, in, out) from the symmetric interval whose uniform distribution has variance 2 / (fan_in + fan_out), the fans being those that PyTorch gives for the transposed shape (out, in, kdim).",
  "all kernel sizes, channel numbers and random numbers", "a wrong fan changes only the scale of random numbers", [UT+"xavier_uniform_"])
p("Points.save writes exactly the requested attributes",
  "An npz file has the array of each attribute that is requested and present, under its documented name and with the rows of the cloud, and nothing else; an xyz file has one line per point with the requested attributes in the order of the letters; other letters and other extensions are rejected.",
  "all point clouds, file names and sequences of letters, repeated or not, of either case", "tests save one cloud with the default letters", [PT+"Points.save"])
p("The example octree has the documented points",
  "build_example_octree accepts 1, 2 or 3 points and rejects other numbers; for all legal depths the result is a valid octree of one sample whose non-empty nodes, from full_depth on, are exactly the cells of the example points.",
  "all depths, full depths and numbers of points", "tests use the example octree at two depths", [UT+"build_example_octree"])
p("Upgraded checkpoints have the same convolution weights",
  "The upgrade tool turns convolution weights with one row of in * K numbers per output into weights of shape (K, in, out) with the same numbers, so that summing over kernel elements and channels gives the old matrix product; K is 8 for down- and upsampling layers and 27 otherwise.",
  "all numbers of channels, weights and layer names", "a transposed view has a legal shape and wrong numbers", ["projects/tools/upgrade_ckpt.py:14-33"])
p("Upgraded checkpoints name the layers consistently",
  "The weight and the bias of each 1x1 convolution get the names of one linear layer at the same place, the weight loses its last dimension of size 1, and tensors with other names are kept.",
  "all names of modules and tensors", "names are replaced as substrings; tests cannot try all module names", ["projects/tools/upgrade_ckpt.py:14-33"])
p("The clean-up tool keeps one checkpoint per folder, the last but one in order",
  "From a folder with at least two files all are removed but the last one but one in alphabetical order, with the names of the solver the weights of the last epoch; a single file is kept.",
  "all sets of file names", "a wrong slice deletes the wrong checkpoint for some numbers of files only", ["projects/tools/cleanup_ckpt.py:24-29"])
p("The parameter listing counts each variable once",
  "The listing has one line for each variable whose name contains no skipped word, in order, numbered from 0, with its number of entries; the total is the sum of these numbers.",
  "all checkpoints and skipped words", "the skip flag is set in a loop over words and depends on their order if handled wrongly", ["projects/tools/parse_ckpt.py:list_var"])
p("Nearest interpolation at the cloud of an octree reads the leaf features",
  "With the octree and the indices that build_octree returns for a cloud, nearest interpolation of the features of the finest layer at the points of the cloud gives each point the row of its index; at the stored averaged points it gives the features themselves.",
  "all legal point clouds, features of non-empty or of all nodes", "the search structure, the scaling of coordinates and the leaf order must agree for every cloud", ["ocnn/nn/octree_interp.py:OctreeInterp", OC+"Octree.build_octree"])
p("Flipping a point cloud flips its octree",
  "Flipping a cloud along some axes and building the octree gives, at every depth, the reflected nodes with the same emptiness; each point falls into the reflected leaf, and the leaf has the reflected mean position, the same features and the reflected normal.",
  "all legal point clouds none of whose coordinates along a flipped axis lies on a plane between finest cells, all sets of axes", "reflection reorders the keys of all nodes", [PT+"Points.flip", OC+"Octree.build_octree"])
p("Max pooling level by level pools over all descendants",
  "Pooling non-empty node features from depth d + n down to d one level at a time gives each node the entrywise least upper bound over its non-empty descendants at depth d + n; nearest upsampling followed by max pooling gives the feature back.",
  "all valid octrees, depths, numbers of levels and features; nodes without non-empty children get 0, which built octrees have no case of from full_depth on", "the composition must hold for all trees and numbers of levels", ["ocnn/nn/octree_pool.py:octree_max_pool", "ocnn/nn/octree_interp.py:octree_nearest_upsample"])
p("Group normalisation gives every sample normalised statistics",
  "With the initial parameters, in every sample and group of channels the sum of the outputs is the sum of the inputs times eps / (n + eps) over the standard deviation, the sum of their squares is (n + eps) * var / (var + eps), less than n + eps, and so is the square of every entry, n being the number of entries of the group.",
  "all octrees, features, groups and positive eps", "tests compare with PyTorch for one sample up to a tolerance", ["ocnn/nn/octree_norm.py:OctreeGroupNorm"])
p("ModelNet40 meshes are scaled into the unit ball",
  "If the enclosing-ball routine finds the smallest enclosing ball, the smallest enclosing ball of the normalised vertices is the unit ball at the origin and the result does not depend on the position and size of the mesh; if it fails, the vertices lie in an open cube around the origin; align_y rotates the z axis to the y axis.",
  "all lists of vertices of positive extent", "floating-point meshes of a data set are a sample; the small constant in the divisor looks as if it broke scale invariance", ["projects/tools/cls_modelnet.py:convert_mesh_to_points"])
p("Cleaning an OFF file only repairs its header",
  "A file that begins with OFF without a line break gets one there and keeps all other characters; other files are not changed; cleaning twice is cleaning once.",
  "all texts", "tests cannot try all headers", ["projects/tools/cls_modelnet.py:_clean_off_file"])
p("Converted ModelNet40 meshes are read back by the data set",
  "The point file written for each mesh is found by the data set reader under its listed name and has the sampled points and normals in single precision; a file of another type is rejected.",
  "all mesh names, sampled points and normals", "names are built by cutting suffixes in one tool and joined in another", ["projects/tools/cls_modelnet.py:convert_mesh_to_points", "projects/datascts/modelnet40.py:read_file"])
p("The completion tools write lists and files that the completion data set reads",
  "Each line of a list that names one original file becomes the same line with the new ending, under a list name with that ending; the reader of the completion data set gets from each converted file the points and normals of the original in single precision, and no other file is written.",
  "all shape names and clouds", "two tools and one reader must agree on names and arrays", ["projects/tools/ae_shapenet.py:_convert_ply_to_numpy", "projects/tools/ae_shapenet.py:_create_filelist", "projects/datascts/completion.py:ReadFile"])
p("Image-to-shape data finds the rendering and the points of each shape",
  "The image is in the folder of the same shape among the renderings, its number is written with two digits and distinct numbers below 24 give distinct files, and point files of both supported types with the same content give the same data.",
  "all shape names, rendering numbers and point files", "file naming is tested for the data set at hand only", ["projects/datascts/image2shape.py"])
p("Drop path does not change the mean of the features",
  "In training mode with a drop probability m / N, drawing the random numbers of the samples uniformly from the N equally spaced values, the mean of each output entry over all draws is the input entry; without scaling it is the keep probability times the entry. Each draw drops or keeps whole samples and succeeds.",
  "all valid octrees, layers, features, batch sizes, probabilities m / N with 0 < m < N and both settings of nempty and scale_by_keep", "a test sees a few draws; the mean is over all of them", ["ocnn/nn/octree_drop.py:OctreeDropPath"])
p("Convolution and transposed convolution with kernel 2 and stride 2 are block products",
  "With kernel size 2 and stride 2 on all nodes, the output of the convolution at non-empty node j of the coarser layer is the rows 8j to 8j + 7 of the input times the eight matrices plus the bias, and zero at empty nodes; the transposed convolution gives row 8j + k as row j of the non-empty nodes times the transposed matrix k plus the bias.",
  "all valid octrees, layers, features, weights and both methods of computing", "agreement must hold for all trees and chunk sizes", ["ocnn/nn/octree_conv.py:OctreeConv", "ocnn/nn/octree_conv.py:OctreeDeconv"])
p("Octrees are self-similar",
  "Shrinking a cloud by two into one octant of the cube and building an octree of one more level gives the same tree in this octant: the same leaf number of each point, the non-empty nodes and the nodes below the full layers moved and in the same order, moved leaf positions, the same features and normals.",
  "all legal point clouds, octants and full depths of the two octrees, depth up to 15", "it relates two runs on different depths for all clouds", [OC+"Octree.build_octree"])
p("The training loss bounds the number of wrong predictions",
  "The loss is the mean of the negative logarithms of the probabilities of the right classes; it is not negative, and log 2 times the proportion of wrong predictions is not greater than the loss, so that a loss below log 2 divided by the batch size means that all predictions are right. Adding a constant to the scores of a row changes neither loss nor accuracy. A label that is not a class raises; the label -100 is not counted.",
  "all batches of real scores and labels", "an inequality between two metrics for all real scores", ["projects/classification.py:ClsSolver.train_step", "projects/classification.py:ClsSolver.test_step"])
p("Votes of the segmentation evaluation count how often a point was seen",
  "The probabilities of a row are positive, add up to 1 and are in the order of the scores. After an evaluation with any number of repetitions, the accumulated scores of each point of each file are not negative and add up to the number of times the point was inside the clipped cloud.",
  "all sequences of batches with consistent sizes, all real scores", "the accumulation over all batches of a run cannot be enumerated", ["projects/segmentation.py:SegSolver.eval_step"])
p("Numbers of nodes of an octree",
  "In a built octree, layers up to full_depth have batch_size * 8^d nodes, each further layer has eight nodes for each non-empty node of the layer above, from full_depth on the number of non-empty nodes is the number of occupied cells, is not greater than the number of points and does not decrease with the depth, so that layers have at most eight times as many nodes as there are points; and there are as many leaves as points exactly if no two points of a sample share a finest cell.",
  "all legal point clouds, depths and batch sizes", "counts depend on the whole cloud", [OC+"Octree.build_octree", OC+"Octree.octree_split", OC+"Octree.octree_grow"])
p("The training and test steps of the projects run on every batch of non-empty clouds",
  "For each network that the classification and segmentation projects offer and each feature string with the right number of channels, the step from point clouds to logits (octrees, merging, features, network, and for segmentation the logits and labels of the points above the mask) succeeds for each batch of legal clouds with at least one point each, in evaluation mode with any number of clouds and in training mode with two or more; classification gives one row of logits per cloud, segmentation one row per point whose label is above the mask.",
  "all batches of clouds, depths, networks and parameter values", "tests run a network on a few clouds; a crash on some shape of octree shows only in long runs", ["projects/classification.py:ClsSolver.forward", "projects/segmentation.py:SegSolver.model_forward"])
p("The shipped configurations run",
  "With the configuration files of ModelNet40 (LeNet and HRNet), ScanNet, KITTI and ShapeNet segmentation, the numbers of channels agree with the feature strings, and the steps succeed for each batch of legal clouds with the attributes that the data sets have. The commands for the ShapeNet categories run for each depth from 3 (SegNet) or 5 (UNet) to 16 and give one logit per part.",
  "all batches of clouds; all categories and depths for ShapeNet", "a run of each configuration needs the data and hours; the claim is for every batch", ["projects/configs/cls_m40.yaml", "projects/configs/seg_scannet.yaml", "projects/scripts/run_seg_shapenet.py"])
p("Keys do not depend on devices and on earlier calls",
  "In every sequence of calls of the encoder and the decoder with tensors on any devices, each call returns the interleaved bits or the coordinates of its own arguments.",
  "all sequences of calls, devices, coordinates and depths up to 16", "the cached tables make the functions stateful; histories cannot be enumerated", [SK+"KeyLUT.encode_lut", SK+"KeyLUT.decode_lut", SK+"xyz2key", SK+"key2xyz"])
p("The batch index of a key may be missing, a tensor or an integer",
  "As documented, the encoder accepts no batch index, a tensor or an integer below 32768, and puts it into the bits 48 to 62 of the key.",
  "all coordinates, batch indices, depths up to 16, devices and earlier calls", "a wrong argument type shows only when somebody uses it", [SK+"xyz2key"])
p("Gradient checkpointing of a convolution gives the result of the convolution",
  "The wrapper that runs a convolution under gradient checkpointing returns what the convolution returns.",
  "all convolutions and features", "the wrapper is not called in the package", ["ocnn/modules/modules.py:ckpt_conv_wrapper"])
p("The order of the clouds in a batch does not matter",
  "When the clouds of a batch are given in another order, the classification step returns the same rows of logits in that order, and the segmentation step returns for each point of each cloud the same row of logits. This holds in evaluation mode and in training mode, where batch normalization uses the statistics of the whole batch, provided that dropout draws the same numbers for a sample in both runs.",
  "all batches of legal clouds, permutations, depths, networks and parameter values", "data loaders shuffle; a dependence on the position in the batch is hidden in the noise of training", ["projects/classification.py:ClsSolver.forward", "projects/segmentation.py:SegSolver.model_forward", OC+"merge_octrees"])
p("Voting over epochs and chunks gives each vertex of a scene its label",
  "After an evaluation of several epochs, the conversion of the saved predictions writes one file per scene with one label per vertex: the raw id of the first class whose probability, summed over all epochs and all chunks in which the vertex was kept, is largest. A vertex that was always clipped gets the first id. The validation command then prints the mean share of right labels of the scenes and the mean IoU of the classes over all scenes for these labels; if the true class always has most votes it prints accuracy 1 and IoU 1 up to the regularisation.",
  "all file lists of scenes and chunks numbered below ten, numbers of epochs, batches, clipping masks and network outputs", "the votes pass through three programs and two kinds of files; runs with 12 and 72 epochs on real scans are too slow for tests", ["projects/segmentation.py:SegSolver.eval_step", "projects/tools/seg_scannet.py:generate_output_seg", "projects/tools/seg_scannet.py:calc_iou", "projects/scripts/run_seg_scannet.py:validate"])
p("32-bit counters suffice below 2^31 nodes per layer",
  "Node counts and child indices are stored as 32-bit integers. Building, merging, growing by a decoder and constructing neighbour tables nevertheless give exactly the octree of unbounded arithmetic whenever every layer of it has fewer than 2^31 nodes. Starting a full octree raises when its finest layer has 2^31 nodes or more; a child index of 2^28 or more would give a wrong, negative neighbour.",
  "all legal clouds and batches, mergeable lists of octrees, 0/1 predictors, valid octrees, depths up to 16", "an overflow needs an octree with about 2^28 occupied nodes, which no test can allocate", [OC+"Octree.octree_grow_full", OC+"Octree.octree_split", OC+"Octree.octree_grow", OC+"Octree.build_octree", OC+"Octree.construct_all_neigh", OC+"merge_octrees", OC+"init_octree"])
p("Rounding error of convolutions",
  "A convolution computed in floating point, with either the direct or the buffered method, any sufficient buffer size, any order of summation and any rounding with relative error u and underflow e, differs from the exact convolution by at most ((1+u)^n - 1) times the convolution of the absolute values plus n e (1+u)^n, where n is one more than the number of products per output; two such results differ by at most twice that. The two methods add up exactly the same products, and the data and weight gradients of the buffered method satisfy the same kind of bound.",
  "all valid octrees, layers, kernels, strides, nempty modes, buffer sizes, rational data and weights, u and e >= 0; overflow is excluded", "tests compare the two methods on a few octrees with a fixed tolerance on one device", [NN+"octree_conv.py:OctreeConv.forward", NN+"octree_conv.py:OctreeConvBase.forward_gemm", NN+"octree_conv.py:OctreeConvBase.backward_gemm", NN+"octree_conv.py:OctreeConvBase.weight_gemm"])
p("A layer keeps the kernel size it was constructed with",
  "Whatever layers a program constructs and runs, and however it shares lists of kernel sizes between them or relies on the default argument, each layer uses the kernel size that its list had when the layer was constructed, and constructing a layer does not change the list of the caller.",
  "all sequences of constructing and running layers and changing lists", "the default argument is one object shared by all layers of a program and is changed by the first constructor; tests construct few layers", [UT+"resize_with_last_val", NN+"octree_conv.py:OctreeConvBase.__init__", NN+"octree_conv.py:OctreeConv.forward", NN+"octree_dwconv.py:OctreeDWConv.forward"])
p("Transformations of a cloud compose and can be undone",
  "Two translations of a point cloud are one translation by the sum, two rotations about the same axis are one by the sum of the angles, and two scalings by positive factors of a cloud with normals of length one are one scaling by the products; the opposite translation, the opposite angles one axis at a time starting from the last, and the inverse factors restore points, normals and all other attributes.",
  "all clouds, displacements, angles and positive factors of at most 10^12, in exact arithmetic", "an augmentation pipeline composes random transformations; tests apply single transformations to a few points", [PT+"Points.translate", PT+"Points.rotate", PT+"Points.scale"])
p("Scaling by -1 along axes is flipping",
  "Scaling a point cloud with normals of length one by factors that are -1 along some axes and 1 along the others has the same effect as flipping the cloud along these axes.",
  "all clouds and all strings of axes", "depends on how normals are treated for each combination of axes", [PT+"Points.scale", PT+"Points.flip"])
p("Turning a cloud is turning the kernels",
  "If a point cloud with its normals is turned by one of the 48 symmetries of the cube, its octree is the turned octree, with the same features and displacements, and turned normals, local and global coordinates. ResNet, HRNet and UNet give for the turned octree, with the matrices of all kernels permuted accordingly and all other parameters unchanged, the logits of the original octree; UNet gives every turned query point the prediction of the original point. This holds in evaluation and training mode, with and without empty nodes.",
  "all 48 symmetries, parameters, depths, stages, clouds with no reversed coordinate on a plane between finest cells, end to end for the features D and F", "a wrong order of octants or kernel offsets in any one layer shows only for particular symmetries and trained weights; tests compare single layers with a dense reference", [OC+"Octree.build_octree", NN+"octree_conv.py:OctreeConv.forward", NN+"octree_pool.py:OctreeMaxPool.forward", NN+"octree_interp.py:OctreeInterp.forward", MD+"resnet.py:ResNet.forward", MD+"hrnet.py:HRNet.forward", MD+"unet.py:UNet.forward"])
p("Linear upsampling is trilinear interpolation between node centres",
  "OctreeUpsample with method linear returns one row per node of the finer layer: the mean of the features of the existing coarse nodes of its sample around its centre, weighted by the trilinear weights. For one level these are 27/64 for the parent, and 9/64, 3/64, 1/64 for the nodes beyond the faces, edges and the corner of the parent on the side of the node. Features that are an affine function of the position are continued exactly in full layers.",
  "all octrees, depths, differences of depth, features, with and without empty nodes", "the weights at particular nodes depend on which neighbours exist and on how the coordinates of missing ones are encoded; tests compare one small octree with a stored result", [NN+"octree_interp.py:OctreeUpsample.forward", NN+"octree_interp.py:octree_linear_pts"])
p("Generation commutes with turning",
  "If every kernel of a generating network (AutoEncoder, the decoders of the shape completion and image-to-shape networks) is turned by a symmetry of the cube, then generating from the turned code gives the turned shape: the turned octree, the turned logits of all layers and the turned signal. The same holds for AutoEncoder.forward with update_octree=True on the turned input octree. Each layer must have a node predicted to be non-empty.",
  "all 48 symmetries, parameters, codes, depths up to 9, batch sizes, training and evaluation mode", "the octree is grown by the predictions themselves, so any asymmetry in one layer, in the order of children or in the neighbour tables changes which nodes exist later; tests of single layers do not run the loop", [MD+"autoencoder.py:AutoEncoder.decoder", MD+"autoencoder.py:AutoEncoder.decode_code", MD+"autoencoder.py:AutoEncoder.forward", OC+"Octree.octree_split", OC+"Octree.octree_grow"])
p("The completion network returns a prediction for every octant of the output octree", "Completing a partial shape with OUNet: with a ground truth octree the network returns a pair of logits for every octant of that octree at every depth from the full depth on and a signal for every non-empty octant of its finest depth, whatever octants input and ground truth share; the features that the encoder computed at an octant of the input are added at the same octant of the output, if it has that octant, and nowhere else; without a ground truth it generates a well-formed octree of the depth of the network with the samples of the input. If the training run on the ground truth predicts exactly its non-empty octants, the free completion generates the ground truth with the same logits and the same signal, and the run along a generated octree repeats the generation. In evaluation mode every pair of a batch is completed as it is alone.", "for all parameters, input and output octrees, batch sizes, depths up to 9 and full depths, in training and evaluation mode", "The training run and the free run take different branches at every depth and meet only if all intermediate octrees agree; the octrees of the two arguments of the alignment vary independently.", [MD+"ounet.py:OUNet.encoder", MD+"ounet.py:OUNet.decoder", MD+"ounet.py:OUNet.forward", PJ+"completion.py:CompletionSolver.model_forward"])
p("Points outside the cube are not mixed in with the others", "A point outside the cube is refused by build_octree, or at least never counted in a node that does not contain it. Points inside the cube are counted in the node that contains them, wherever the other points are.", "for all clouds with arbitrary coordinates, depths up to 16, batch sizes", "The points that leave the cube are a matter of the data; the octree built from them looks like any other.", [OC+"Octree.build_octree", SK+"xyz2key"])
p("Normalising removes position and size", "normalize(*bbox(), scale) of a cloud does not depend on where the cloud is nor on how large it is: moving or magnifying the cloud beforehand does not change the result.", "for all non-empty clouds, translations and positive factors", "An invariance over a continuum of moves and factors.", [PT+"Points.normalize", PT+"Points.bbox", PT+"Points.translate"])
p("The stored position of a leaf is a point of the leaf, in single precision too",
  "Building an octree from a cloud stores, for every non-empty finest node, the average of the positions of its points. With single precision arithmetic and an unspecified order of the additions, this average is still inside the node, the average combines exactly the points that the returned index assigns to the node, and it differs from the exact average by a bound that depends on the number of points only.",
  "all octree and cloud parameters, batch sizes, clouds with coordinates below 1 - 2^-24, leaves with any number of points, orders in which the points of a leaf are added up",
  "Whether an average leaves its node depends on the number of points in the node, the depth, the position and the order of summation; test clouds have few points per node and shallow octrees, where it never happens.",
  [OC+"Octree.build_octree", UT+"scatter_add"])
p("A point of the cloud finds the ancestor of its leaf at every depth",
  "With the octree and the point indices returned by build_octree, nearest interpolation at the points of the cloud, at any depth and for features of all or of the non-empty nodes, with or without bound check, gives each point the features of the node of that depth that contains the leaf of its index - also when the coordinates are single precision numbers and building and interpolating round them.",
  "all legal point clouds (in single precision: coordinates below 1 - 2^-24), depths up to that of the octree, batch sizes, features",
  "Building scales the coordinates for the finest depth and interpolation for the depth of the features; that the two roundings never disagree about the cell is a statement about all coordinates and depths.",
  [OC+"Octree.build_octree", NN+"octree_interp.py:octree_nearest_pts", NN+"octree_interp.py:OctreeInterp"])
p("Global pooling returns the mean of a sample in the precision of the features",
  "Global pooling with features of p significant bits returns, for every sample, the mean of the features of its nodes up to a relative error of about (number of nodes + 1) * 2^-p of the mean absolute value, in whatever order the rows are added up; the nodes of the sample are counted exactly; and a sample without nodes gets 0.",
  "all octrees, depths, batch sizes, all or only non-empty nodes, features, precisions p (float32 24, float16 11, bfloat16 8), orders of summation",
  "The nodes are counted by adding up ones in the precision of the features. The count is exact up to 2^p nodes and can stop there; unit tests pool a few nodes in single precision.",
  [NN+"octree_pool.py:octree_global_pool", NN+"octree_norm.py:OctreeGroupNorm.forward", UT+"scatter_add"])
p("A normalised cloud fits the cube in single precision",
  "Normalising a cloud by its own bounding box with scale s gives, in single precision too, coordinates between -s and s up to rounding; with scale 1 or less the octree that is then built from the cloud stores every point in the leaf that contains it.",
  "all clouds with any extent and any distance from the origin, scales, octree parameters, batch sizes",
  "The constant 1e-6 that is to keep the points off the faces of the cube, and the rounding of the centre, depend on the magnitude of the coordinates; test clouds are small and near the origin.",
  [PT+"Points.normalize", PT+"Points.bbox", OC+"Octree.build_octree"])
p("Clipping makes any cloud fit for building in single precision",
  "Whatever the coordinates of a cloud are, after clipping it to [-1, 1] with a margin between 2^-22 and 1 (the default is 0.01) an octree can be built from it in single precision: exactly the points with coordinates between the bounds are kept, with their attributes and samples, and each is stored in a leaf of its sample that contains it up to 2^-24. Without a margin this is false.",
  "all clouds with any coordinates, attributes and batch sizes, margins, octree parameters",
  "The failures of building in single precision occur at single coordinates next to the faces of the cube; that the margin excludes all of them is a statement about all coordinates.",
  [PT+"Points.clip", PT+"Points.inbox_mask", OC+"Octree.build_octree"])
p("In-place activations never overwrite anything that is used later",
  "The forward passes of the convolutions, blocks and networks leave every tensor that existed before untouched, in particular the features handed in and those stored in the octree, also when the pass raises; the result is the one computed without sharing memory, the skip connections of the U-Net carry what the encoder computed, and the backward pass never fails because a saved tensor has been modified.",
  "all networks, stages, block numbers, channels, kernel sizes, strides, nempty, bias and method settings, octrees, parameters, training and evaluation mode, states of the memory before the call",
  "Whether two names share memory depends on the configuration (no projection in a residual block, equal depths in a transition, no dropout in evaluation, zero blocks); a test sees one configuration, and a wrong value after an in-place operation is still a plausible value.",
  [MO+"resblocks.py:OctreeResBlock.forward", MO+"resblocks.py:OctreeResBlock2.forward", MO+"modules.py:OctreeConvBnRelu.forward", MO+"modules.py:Conv1x1BnRelu.forward", NN+"octree_conv.py:OctreeConv.forward", MD+"unet.py:UNet.forward", MD+"hrnet.py:HRNet.forward"])
p("Checkpointing residual blocks changes memory, not the training result",
  "A step of training or evaluation with OctreeResBlocks(use_checkpoint=True) has the same effect as with use_checkpoint=False: the same output or error, blocks that are run again in the backward pass reproduce what they returned, so gradients are taken at the same point, and the running statistics of the batch normalizations after the step are the same.",
  "All octrees, depths, tensors, numbers of blocks, block kinds, channels, parameters, running statistics before the step, and both modes",
  "The outputs agree, so comparing them shows nothing; the difference is in buffers that are read only in evaluation mode, later, and it vanishes when the statistics have converged.",
  [MO+"resblocks.py:OctreeResBlocks", MO+"resblocks.py:OctreeResBlock", MO+"resblocks.py:OctreeResBlock2"])
p("The commands of the documented ScanNet workflow find their files",
  "After the data set has been prepared by the documented command, training, training on all scenes, validation and test read file lists, point clouds, labels, predictions and checkpoints that the preceding commands have written, for every alias, and leave the labels of every listed scene.",
  "All archives of file lists, all sets of scenes, all folders of the preparation, all GPUs, aliases, ports and checkpoints.",
  "The commands need the licensed data set, which no test has, and each command works when its own folder happens to exist; only the comparison of what one writes with what the next reads shows the mismatch.",
  [PJ+"scripts/run_seg_scannet.py:train", PJ+"scripts/run_seg_scannet.py:train_all", PJ+"scripts/run_seg_scannet.py:validate", PJ+"scripts/run_seg_scannet.py:test", PJ+"tools/seg_scannet.py:process_scannet"])
p("What U-Net predicts at a point depends only on the points near it",
  "In evaluation mode the prediction of UNet at a query point depends only on the points (with normals and features) of the same sample whose coordinates differ by less than a fixed radius; the points further away, the other samples and the order of the points may be changed at will. For the default network the radius is 365 finest voxels (365.5 with linear interpolation), and 16 more if empty nodes take part. Hence cropping a scene with inbox_mask to a box that leaves this margin does not change the prediction: a scene can be processed in overlapping boxes.",
  "All parameters in evaluation mode, all legal pairs of clouds with the same points near the query, all features, all configurations with as many channels as stages, all depths, both interpolations; with linear interpolation the query is half a cell away from the sides of the cube.",
  "Locality is a statement about all changes far away; a test changes a few clouds, and a receptive field that is off by one voxel shows only if something happens to be just there.",
  [MD+"unet.py:UNet.forward", NN+"octree_conv.py:OctreeConv.forward", NN+"octree_interp.py:OctreeInterp.forward", PT+"Points.inbox_mask", PT+"Points.__getitem__"])
p("The octree of two clouds together has the nodes of both",
  "Building an octree from the points of two clouds together gives, at every depth, exactly the nodes of the two octrees, and a node is non-empty iff it is non-empty in one of them; so adding points never removes a node. The position and feature stored for a leaf is the mean of the two stored ones, weighted by the numbers of points in the leaf.",
  "All pairs of legal clouds, batch sizes, depths and full depths.",
  "A statement about all pairs of clouds and all nodes; a test compares single clouds.",
  [OC+"Octree.build_octree"])
p("Shapes stored in half precision give nearly the same octrees",
  "After sampling the ShapeNet meshes and converting the clouds to npz archives, the data set finds for every mesh its cloud, with the points and normals in the order in which they were sampled: from the ply file rounded to single precision, from the archive rounded to half precision. Coordinates between -1/2 and 1/2 are stored with an error of at most 2^-13, components of normals with an error of at most 2^-12. With the point scale 0.5 the octrees of the two files touch: for depths up to 13, at every level from the full depth on, every non-empty node of one octree equals or touches a non-empty node of the other.",
  "All folders of meshes with names without slashes, all clouds with coordinates inside the unit cube by a margin of 2^-12, all depths up to 13 and full depths; the statement on nodes for any two clouds that differ point by point by at most the side of a cell.",
  "Tests do not read shapes from archives, and a test compares a few clouds, none of them at the boundary of cells.",
  [PJ+"tools/image2shape.py:ply2npz", PJ+"tools/image2shape.py:mesh2points", PJ+"tools/image2shape.py:read_ply"])
p("An octree knows of its cloud the occupied leaves and the means in them, and nothing else",
  "Two point clouds give the same octree, equal in all attributes at all depths, iff they occupy the same cells at the finest depth and have in each of them the same mean position, the same normalised sum of normals and the same mean feature. In particular a cloud may be thinned out to one point per leaf, the mean with normalised normal and mean feature: the octree, and so every prediction computed from it, stays the same, and the i-th new point belongs to the i-th leaf.",
  "All pairs of legal clouds with the same kinds of attributes, all batch sizes, depths and full depths.",
  "Quantifies over all clouds that share the means of all leaves; a test compares single clouds.",
  [OC+"Octree.build_octree"])
p("Feature tensors of the wrong height are rejected",
  "An operation that is given a feature tensor whose number of rows is not the number of nodes of the layer (of all nodes, or of the non-empty nodes, as selected by nempty) raises an exception instead of computing something: the convolution and depth-wise convolution layers, the transposed convolutions, the pooling layers, the interpolations, octree_align, octree_depad and the global pooling.",
  "all octrees, depths, tensors of a wrong height, supported kernel sizes and strides, both settings of nempty",
  "A wrong height is the usual symptom of mixing up depths or the nempty setting. Whether the mistake raises or silently gives numbers depends on the operation, the layer and the counts of the octree; a test sees one combination.",
  [NN+"octree_conv.py:OctreeConvBase.check_and_init", NN+"octree_conv.py:OctreeConv.forward", NN+"octree_pool.py:octree_avg_pool", NN+"octree_pool.py:octree_max_pool", NN+"octree_interp.py:octree_nearest_pts", NN+"octree_interp.py:octree_linear_pts", NN+"octree_align.py:octree_align", NN+"octree_pad.py:octree_depad"])
p("Linear interpolation is accurate in single precision, even where almost no weight is present",
  "In single precision, linear interpolation with bound_check at points with single precision coordinates in the cube differs from exact linear interpolation by at most 2^-17 of the largest absolute feature of the channel (up to 2^-90), whatever the order in which torch adds up, also at points where the weights of the existing nodes add up to almost nothing. With or without bound_check, an interpolated value exceeds the largest absolute feature by at most a factor of 1 + 2^-17: the division by the total weight does not blow up rounding errors.",
  "all octrees, depths up to 16, features, points with float32 coordinates in the cube, orders of summation and roundings with relative error 2^-24 and underflow 2^-149",
  "The total weight, by which the code divides, can be as small as 2^-72, and the offset -0.5 and the fraction are computed by subtractions that can cancel. That no point and no order of summation gives a large error needs an analysis of all float32 coordinates.",
  [NN+"octree_interp.py:octree_linear_pts"])
p("Operations on features keep the floating-point type of the features",
  "Padding, depadding, column gathering and scattering, conversion to voxels, max pooling and unpooling, global pooling, stochastic depth, nearest-neighbour interpolation and nearest-neighbour upsampling accept features of every floating-point type and return that type; group normalisation does when its parameters have the same type. octree_align, average pooling, linear interpolation and linear upsampling should do so too, but do not: with float32 as default type the first two accept float32 features only, linear upsampling accepts float32 only, and linear interpolation accepts float32 features at points that are not float64 or float64 features at float64 points. In all other cases they raise.",
  "all floating-point types of features, points and parameters, default types, depths and flags",
  "The tests use float32 only. That an operation works in half or double precision depends on the type of every intermediate tensor, also of those that are created without a type or from integers.",
  [NN+"octree_align.py:search_value", NN+"octree_pool.py:octree_avg_pool", NN+"octree_interp.py:octree_linear_pts", NN+"octree_interp.py:OctreeUpsample.forward", NN+"octree_norm.py:OctreeGroupNorm.forward", NN+"octree_pad.py:octree_pad"])
p("Convolution works for all combinations of types, inside and outside of autocast",
  "The memory-saving convolution and deconvolution accept features, weights, biases and incoming gradients of any floating-point types, inside and outside of an autocast region, and whatever the number of chunks: the result and the gradient of the features have the type of the features, the gradient of the weights has the type of the weights. The depth-wise convolution does so outside of autocast. With direct_method the layers work exactly when features and weights have the same type after autocast, and the result has that type; so the two methods give results of the same type exactly when autocast changes nothing and both types are equal.",
  "all floating-point types of features, weights, biases and gradients, autocast settings of the forward and backward pass, strides, flags and numbers of chunks",
  "A test fixes one combination of types. The products are computed in a type that depends on autocast while the scatter needs equal types, in every chunk.",
  [NN+"octree_conv.py:OctreeConvBase.forward_gemm", NN+"octree_conv.py:OctreeConvBase.backward_gemm", NN+"octree_conv.py:OctreeConvBase.weight_gemm", NN+"octree_conv.py:OctreeConv.forward", NN+"octree_conv.py:OctreeDeconv.forward", NN+"octree_dwconv.py:OctreeDWConv.forward"])
p("The data pipeline turns float32 clouds into float32 inputs, and augmentation accepts nothing else",
  "With distort, the transformation of a sample succeeds exactly when points and normals are float32 (torch's default type), and changes no type, whatever is drawn; clouds in double precision (numpy's default) or half precision raise. Without distort every cloud is accepted, and only the orientation of the normals along one axis changes a type (half-precision normals become float32). The signals of an octree have the types of its cloud. So a float32 cloud gives a float32 input of the network, for all settings and all selected features that exist.",
  "all types of points, normals and features, settings, random draws and feature strings",
  "Whether a combination of types raises depends on the random draw (a scale of 1 leaves the cloud alone) and on settings; a test fixes one combination.",
  [DS+"Transform.transform", DS+"Transform.rnd_parameters", PT+"Points.rotate", PT+"Points.orient_normal", PT+"Points.scale", OC+"Octree.build_octree", OC+"Octree.get_input_feature"])
p("merge_points records the number of points of every cloud",
  "batch_npt should hold the number of points of each merged cloud, so that predictions can be split by it, and batch_id the position of the cloud. For at most 2^24 clouds of at most 2^24 points this holds. A recorded size is right exactly when the size has at most 24 significant bits, and is wrong by at most one part in 2^24 otherwise; a cloud of 2^24 + 1 points is recorded with one point too few, so that the sizes do not add up to the number of points.",
  "all lists of clouds of all sizes",
  "The sizes go through a float32 tensor; the error appears for more than sixteen million points only.",
  [PT+"merge_points", PJ+"segmentation.py:SegSolver.eval_step"])
p("An octree works on the device of its point cloud",
  "After build_octree all tensors of the layers are on the device of the points, and construct_all_neigh should work there; octrees on one device should be mergeable. This holds when the device was given to the constructor, as a string or an object, when octrees built from clouds on one device are merged (whatever their constructors were given), and when the octree is moved to another device afterwards. It fails with the default device for a cloud on a GPU: constructing the neighbours raises for every depth above full_depth, because the look-up tables stay on the CPU. In general the neighbours can be constructed exactly when the tables are on the device of the octree. And an octree of init_octree with device 'cpu' cannot be merged with an octree built on the CPU, since the string is compared with a device object.",
  "all depths, full depths, devices (strings, objects, with and without index), numbers of merged octrees",
  "The tests run on a machine with one device, where tensors on different devices never meet.",
  [OC+"Octree.__init__", OC+"Octree.reset", OC+"Octree.build_octree", OC+"Octree.construct_neigh", OC+"Octree.construct_all_neigh", OC+"Octree.to", OC+"merge_octrees", OC+"init_octree"])
p("Average pooling in single precision is the mean of the existing neighbours",
  "In single precision octree_avg_pool returns, for every target node and channel, a number within 29/2^24 of the largest absolute feature of the channel (plus 2^-144 for underflow) of the true mean over the existing neighbours, for every supported kernel and stride and in whatever order the sparse product adds its terms: the constant 1e-8 of the denominator is lost by rounding and does not bias the mean. A channel that is 1 everywhere stays exactly 1 for rows of at most nine neighbours added in order (so for pooling with kernel 222), but not at nodes with all 27 neighbours of kernel 333, where it becomes 1 - 2^-22.",
  "all valid octrees, depths, kernels, strides, both nempty modes, feature fields, bounds and orders of addition",
  "A test compares a few results with a tolerance; it cannot show that the error never exceeds a bound for other octrees, features or orders of addition.",
  [NN+"octree_pool.py:octree_avg_pool", NN+"octree_pool.py:OctreeAvgPool.forward"])
p("Drop path in floating point drops samples with the requested probability",
  "In float16, bfloat16, float32 and float64, with the random numbers torch.rand draws on the CPU, OctreeDropPath in training mode drops a sample for a fraction of the equally likely draws that differs from drop_prob by at most one spacing of the draws plus 3 roundings of the keep probability (2^-11 + 3/2^24 in float16, 4/2^24 in float32). All rows of a sample get the same factor, and every factor should be 0 or the rounded 1 / keep_prob (or 1). The latter holds for drop probabilities of at least 2^(1-q), q the bits of the arithmetic (24 for the first three types, 53 for float64), and fails below: with drop_prob = 2^-26 in float32 the largest draw gives the factor 2.",
  "all precisions up to float64, drop probabilities in (0, 1), draws, octrees, features and both settings of nempty and scale_by_keep",
  "Whether a sample is dropped is random, and the draws at which the rounding matters have a probability of 2^-24: no test hits them.",
  [NN+"octree_drop.py:OctreeDropPath.forward"])
p("Pooling undoes upsampling",
  "Pooling (octree_max_pool, octree_avg_pool with kernel '222' and stride 2) the result of octree_nearest_upsample gives every non-empty node its own features back: exactly for max pooling, up to the factor n/(n + 1e-8) (n the number of its upsampled children) for average pooling. With nempty=False empty nodes get zeros in max pooling. With nempty=True on an octree built from points this returns the input tensor at every depth from full_depth on; a non-empty node without non-empty children gets -inf. Max pooling, upsampling and max pooling again equals max pooling once, on every octree.",
  "all valid octrees, depths, feature tensors and both settings of nempty; all clouds in the cube for the built case",
  "an encoder-decoder relies on this at every layer of every octree; unit tests compare one octree's tensors",
  [NN+"octree_pool.py:octree_max_pool", NN+"octree_pool.py:octree_avg_pool", NN+"octree_interp.py:octree_nearest_upsample"])
p("Group normalisation ignores scale and offset",
  "Multiplying the features of a sample in a group of channels by a positive factor and adding a constant should not change what OctreeGroupNorm and OctreeInstanceNorm return. What holds: an offset t moves the centred features by t * eps / (n + eps), n being the number of entries of the group; a factor of at least 1 moves the normalised values away from 0 by a factor of at most sqrt(1 + eps / var); for constant features t the normalised value is at most |t| sqrt(eps) / (n + eps) instead of 0. With one node, one channel and the feature 1000 it is more than 0.95.",
  "all octrees, features, groups, factors and offsets per sample and group",
  "tests use random features around 0 and many nodes, where the effect is below the tolerance",
  [NN+"octree_norm.py:OctreeGroupNorm", NN+"octree_norm.py:OctreeInstanceNorm"])
p("Constructing the neighbour tables again refreshes them",
  "Calling construct_all_neigh on an octree with full_depth at least 1 gives tables that do not depend on what the tables held before: stale, missing or foreign tables are replaced and the call fails exactly when it would have failed with none. Nothing else of the octree changes. A second call changes nothing. Copying the octree to a device before or after the call gives the same octree. Building the tables of merged octrees gives each sample the table it would have had on its own, with the neighbours renumbered by the nodes of the earlier samples.",
  "all octrees (well formed or not) and all previous tables; all devices; for merging all non-empty lists of well-formed single-sample octrees of equal depth and full depth at least 1, all depths",
  "tests build the tables once, on fresh octrees, and compare one merged batch",
  [OC+"Octree.construct_all_neigh", OC+"Octree.construct_neigh", OC+"Octree.to", OC+"Octree.merge_octrees"])
p("The ShapeNet part script trains and reports every category by itself",
  "scripts/run_seg_shapenet.py starts one training for each ratio and category. Each one reads the lists that the data preparation wrote for its category, has as many outputs and classes as the category has parts, and logs to its own folder. The summary shows for each ratio and category the test/mIoU of the last line of that very run, one row per ratio, and two means that lie between the smallest and the largest IoU of the row. With between one hundredth and all of the data every category trains on at least one shape, for at least four epochs, with two drops of the learning rate before the end and tests in between; for the ratios suggested in the script the last epoch is tested, so that the reported value is that of the final network.",
  "all options and lists of ratios that differ in the two printed decimals, all earlier contents of the disk, all logs; all ratios in [1/100, 1] for the schedule; the seven suggested ratios and the sixteen categories for the last epoch; all values of the IoUs",
  "the script runs for days and has no test; it was used with one ratio",
  [PJ+"scripts/run_seg_shapenet.py", PJ+"tools/seg_shapenet.py:generate_filelist"])
p("Parallel convolutions of any kernels are one convolution",
  "The sum of the outputs of two OctreeConv layers with different kernel shapes is the output of one layer whose kernel covers both, with the sums of their matrices offset by offset and of their biases. A layer of any supported kernel shape equals the 3x3x3 layer with zeros at the other offsets. A layer without bias is linear. A layer of stride 1 with the unit matrix at the centre, whatever its kernel shape, returns its input. Networks can therefore be re-parameterised without changing what they compute.",
  "all well-formed octrees with exact neighbour tables, all depths, strides 1 and 2, nempty True and False, all supported kernel shapes in every form the constructor takes, the buffered and the direct method, all features and weights over a commutative semiring",
  "the order of the offsets in the weights differs between kernel shapes and each shape has its own lookup table; tests compare one shape at a time with a dense convolution",
  [NN+"octree_conv.py:OctreeConv", NN+"octree_conv.py:OctreeConvBase", OC+"Octree.get_neigh"])
p("What SegNet predicts at a point depends only on the points near it", "In evaluation mode and with empty nodes (nempty=False, the setting in which SegNet runs) the prediction of SegNet at a query point depends only on the points (with normals and features) of the same sample whose coordinates differ by less than 5*2^stages - 2 finest voxels (half a voxel more with linear interpolation); the points further away, the other samples and the order of the points may be changed at will, and the pooling positions that the encoder hands to the decoder carry nothing further. So cropping a scene with inbox_mask to a box that leaves this margin does not change the prediction. With the 3 stages of seg_shapenet.yaml the radius is 38 voxels: the whole cube at the depth 5 used there, less than a third of it at depth 7.", "All parameters in evaluation mode, all legal pairs of clouds with the same points near the query, all features, all numbers of stages smaller than the depth, both interpolations; with linear interpolation the query is half a cell away from the sides of the cube.", "A test compares two clouds; that nothing outside the radius can matter is a statement about all clouds, weights and depths, and pooling positions are an unusual path for information.", [MD+"segnet.py:SegNet.forward", NN+"octree_pool.py:octree_max_pool", NN+"octree_pool.py:octree_max_unpool", PT+"Points.inbox_mask"])
p("Transposed convolution, upsampling and average pooling are convolutions with special kernels",
  "OctreeDeconv with stride 1 and an odd kernel is the OctreeConv with the same kernel shape whose matrix at every offset is the transposed matrix of the opposite offset, with the same bias. OctreeDeconv with kernel 2, stride 2, identity matrices and no bias is octree_nearest_upsample. octree_avg_pool is OctreeConv with identity matrices and no bias, each row divided by the number of existing neighbours plus 1e-8 (with stride 2: for nempty=True).",
  "all well-formed octrees with neighbour tables, depths, kernel shapes, channel numbers, weights, inputs, nempty flags, buffers that hold one row",
  "The two sides go through different index computations for every octree; tests compare a few random octrees.",
  [NN+"octree_conv.py:OctreeDeconv", NN+"octree_conv.py:OctreeConv", NN+"octree_pool.py:octree_avg_pool", NN+"octree_interp.py:octree_nearest_upsample"])
p("Batch normalisation can be folded into the layer before it in evaluation mode",
  "In evaluation mode OctreeConvBn computes the same as one OctreeConv with a bias, whose matrices have every output channel multiplied by weight / sqrt(running_var + eps) of the normalisation and whose bias is bias - running_mean * weight / sqrt(running_var + eps). The same holds for OctreeDeconvBnRelu with one OctreeDeconv and a ReLU, and for Conv1x1Bn with one Conv1x1.",
  "all parameters, channel numbers, kernel shapes, strides, nempty flags, well-formed octrees with neighbour tables, depths and inputs of the right height",
  "Whether the bias reaches the rows of empty nodes depends on stride, nempty and the octree; a test with stride 1 or nempty=True does not show the difference.",
  [MO+"modules.py:OctreeConvBn", MO+"modules.py:OctreeDeconvBnRelu", MO+"modules.py:Conv1x1Bn", NN+"octree_conv.py:OctreeConv"])
p("A convolution in front of a batch normalisation needs no bias",
  "In training mode the result of an OctreeConv followed by the batch normalisation of the modules does not depend on the bias of the OctreeConv, so the modules lose nothing by leaving it out. The normalised channels have mean bias and variance weight^2 * v / (v + eps), where v is the variance before, and a single row raises ValueError.",
  "all parameters, biases, channel numbers, kernel shapes, strides, nempty flags, well-formed octrees with neighbour tables, depths and inputs of the right height",
  "It depends on whether the bias reaches every row, which only octrees with empty nodes show.",
  [MO+"modules.py:OctreeConvBn", MO+"modules.py:OctreeConvBnRelu", NN+"octree_conv.py:OctreeConv"])
p("A Conv1x1 next to an OctreeConv merges with it",
  "A Conv1x1 without bias behind an OctreeConv computes the same as one OctreeConv whose matrices are the products with the matrix of the Conv1x1 and whose bias is multiplied by it. A Conv1x1 without bias in front of an OctreeConv computes the same as one OctreeConv with the products of the matrices and the same bias. Both hold for stride 1 and 2 and for nempty=True and False.",
  "all parameters, channel numbers, kernel shapes, strides, nempty flags, well-formed octrees with neighbour tables, depths and inputs of the right height",
  "It relates two index computations over all octrees, including missing neighbours and empty nodes.",
  [MO+"modules.py:Conv1x1", NN+"octree_conv.py:OctreeConv"])
with open('/verif/properties.jsonl','w') as f:
    for x in P: f.write(json.dumps(x)+"\n")
print(len(P))
for x in P: print(x['id'],x['title'])
